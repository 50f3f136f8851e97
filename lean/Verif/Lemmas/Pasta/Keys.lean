/-
The keys of the roots of unity of the Pasta fields.
-/
import Verif.Lemmas.Pasta.Group
import Verif.Spec.Registry
import Mathlib.RingTheory.RootsOfUnity.PrimitiveRoots

set_option linter.unusedSectionVars false
set_option maxRecDepth 100000
namespace Ragu.Pasta
open Ragu Ragu.Cert Ragu.Registry Ragu.Spec

/-! ### Lists without repetitions -/

/-- No number is repeated: split by the lowest bit until at most one is left. -/
def distinctBits : ℕ → List ℕ → Bool
  | _, [] => true
  | _, [_] => true
  | 0, _ :: _ :: _ => false
  | k + 1, l@(_ :: _ :: _) =>
    distinctBits k ((l.filter fun x => x % 2 == 0).map (· / 2)) &&
      distinctBits k ((l.filter fun x => x % 2 == 1).map (· / 2))

theorem distinctBits_sound : ∀ (k : ℕ) (l : List ℕ), distinctBits k l = true → l.Nodup
  | _, [], _ => List.nodup_nil
  | _, [_], _ => List.nodup_singleton _
  | 0, _ :: _ :: _, h => by simp [distinctBits] at h
  | k + 1, a :: b :: t, h => by
    rw [distinctBits, Bool.and_eq_true] at h
    generalize a :: b :: t = l at h
    have h0 := distinctBits_sound k _ h.1
    have h1 := distinctBits_sound k _ h.2
    rw [List.nodup_iff_count_le_one]
    intro c
    rcases Nat.mod_two_eq_zero_or_one c with hc | hc
    · have := List.nodup_iff_count_le_one.1 (List.Nodup.of_map _ h0) c
      rwa [List.count_filter (by simp [hc])] at this
    · have := List.nodup_iff_count_le_one.1 (List.Nodup.of_map _ h1) c
      rwa [List.count_filter (by simp [hc])] at this

/-- The keys of `x, x w, …`. -/
def keysFrom (m w : ℕ) : ℕ → ℕ → List ℕ
  | 0, _ => []
  | k + 1, x => 5 * x % m % 2 ^ 64 :: keysFrom m w k (x * w % m)

theorem keysFrom_eq (m w : ℕ) : ∀ (k x i : ℕ), i < k → x < m →
    (keysFrom m w k x)[i]? = some (5 * (x * w ^ i % m) % m % 2 ^ 64)
  | k + 1, x, 0, _, hx => by simp [keysFrom, Nat.mod_eq_of_lt hx]
  | k + 1, x, i + 1, h, hx => by
    rw [keysFrom, List.getElem?_cons_succ, keysFrom_eq m w k _ i (by omega) (Nat.mod_lt _ (by omega)),
      Nat.mod_mul_mod, pow_succ']
    ring_nf

/-! ### `low_u64` -/

theorem lowU64_eq (v : ℕ) : lowU64 v = v % 2 ^ 64 := by
  have h : ∀ k v : ℕ, (((List.range k).map fun i => UInt8.ofNat (v / 2 ^ (8 * i))).foldr
      (fun b acc => b.toNat + 256 * acc) 0) = v % 2 ^ (8 * k) := by
    intro k
    induction k with
    | zero => intro v; simp [Nat.mod_one]
    | succ k ih =>
      intro v
      rw [List.range_succ_eq_map, List.map_cons, List.foldr_cons, List.map_map]
      have e : ((fun i => UInt8.ofNat (v / 2 ^ (8 * i))) ∘ Nat.succ) =
          fun i => UInt8.ofNat (v / 256 / 2 ^ (8 * i)) := by
        funext i
        simp only [Function.comp, Nat.div_div_eq_div_mul]
        rw [show 8 * i.succ = 8 + 8 * i by rw [Nat.succ_eq_add_one]; ring, pow_add]
        norm_num
      rw [e, ih, mul_zero, pow_zero, Nat.div_one]
      have : 2 ^ (8 * (k + 1)) = 256 * 2 ^ (8 * k) := by rw [mul_add, pow_add]; norm_num; ring
      rw [this, Nat.mod_mul]
      simp
  have e : (reprBytes v).take 8 = (List.range 8).map fun i => UInt8.ofNat (v / 2 ^ (8 * i)) := by
    rw [reprBytes, ← List.map_take]
    rfl
  rw [lowU64, e, h]

theorem val_five {m : ℕ} [NeZero m] (f : ZMod m) : (f + f + (f + f) + f).val = 5 * f.val % m := by
  have : f + f + (f + f) + f = ((5 * f.val : ℕ) : ZMod m) := by
    push_cast
    rw [ZMod.natCast_zmod_val]
    ring
  rw [this, ZMod.val_natCast]

/-- The roots of unity of order `2^k` have different keys, when the list of keys has no repetition. -/
theorem keys_of {m w k : ℕ} [Fact m.Prime] (hw : IsPrimitiveRoot (w : ZMod m) (2 ^ k))
    (h : distinctBits 64 (keysFrom m w (2 ^ k) 1) = true) (a b : ZMod m) (ha : a ^ 2 ^ k = 1)
    (hb : b ^ 2 ^ k = 1)
    (he : lowU64 (a + a + (a + a) + a).val = lowU64 (b + b + (b + b) + b).val) : a = b := by
  have hm := (Fact.out : m.Prime).one_lt
  obtain ⟨i, hi, rfl⟩ := hw.eq_pow_of_pow_eq_one ha
  obtain ⟨j, hj, rfl⟩ := hw.eq_pow_of_pow_eq_one hb
  have hv : ∀ i, ((w : ZMod m) ^ i).val = 1 * w ^ i % m := fun i => by
    rw [← Nat.cast_pow, ZMod.val_natCast, one_mul]
  rw [lowU64_eq, lowU64_eq, val_five, val_five, hv, hv] at he
  have hn := distinctBits_sound _ _ h
  have hi' := keysFrom_eq m w (2 ^ k) 1 i hi hm
  have hj' := keysFrom_eq m w (2 ^ k) 1 j hj hm
  rw [he, ← hj'] at hi'
  have hlen : i < (keysFrom m w (2 ^ k) 1).length := by
    by_contra hc
    rw [List.getElem?_eq_none (by omega), hj'] at hi'
    cases hi'
  rw [(List.getElem?_inj hlen hn).1 hi']

/-! ### The roots of unity -/

theorem primitive_of {m r : ℕ} [Fact m.Prime] (h2 : 2 < m)
    (h : powMod m r 32 (2 ^ 31) = m - 1) : IsPrimitiveRoot (r : ZMod m) (2 ^ 32) := by
  have e : (r : ZMod m) ^ 2 ^ 31 = -1 := by
    rw [powMod_cast (ZMod.natCast_self m) (k := 32) (by norm_num), h, Nat.cast_sub (by omega),
      ZMod.natCast_self]
    simp
  have hne : (-1 : ZMod m) ≠ 1 := by
    have : Fact (2 < m) := ⟨h2⟩
    exact ZMod.neg_one_ne_one
  have : Fact (Nat.Prime 2) := ⟨Nat.prime_two⟩
  have := orderOf_eq_prime_pow (p := 2) (n := 31) (x := (r : ZMod m)) (by rw [e]; exact hne)
    (by rw [pow_succ 2 31, pow_mul, e]; ring)
  rw [← this]
  exact IsPrimitiveRoot.orderOf _

theorem primitiveP : IsPrimitiveRoot (rootP : Fp) (2 ^ 32) :=
  primitive_of (by decide +kernel) (by decide +kernel)

theorem primitiveQ : IsPrimitiveRoot (rootQ : Fq) (2 ^ 32) :=
  primitive_of (by decide +kernel) (by decide +kernel)

end Ragu.Pasta
