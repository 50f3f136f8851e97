/-
Property C14: the three ways of evaluating `t(X, Z)` agree with its definition.
-/
import Verif.Props.Sparse
import Verif.Model.Tpoly
import Verif.Spec.Tpoly
import Verif.Lemmas.TestField
import Mathlib.Tactic.FieldSimp

set_option linter.unusedSectionVars false

namespace Ragu.Props
open Ragu Ragu.Tpoly Ragu.Spec Finset
variable {F : Type*} [Field F] [DecidableEq F]

theorem tzLoop_getD (zinv z : F) (m : ℕ) : ∀ (l r : F) (i : ℕ),
    (tzLoop zinv z m l r).getD i 0 = if i < m then l * zinv ^ i + r * z ^ i else 0 := by
  induction m with
  | zero => intro l r i; simp [tzLoop]
  | succ m ih =>
    intro l r i
    cases i with
    | zero => simp [tzLoop]
    | succ i =>
      simp only [tzLoop, List.getD_cons_succ, ih, Nat.add_lt_add_iff_right]
      split
      · rw [pow_succ, pow_succ]; ring
      · rfl

theorem tzLoop_length (zinv z : F) (m : ℕ) : ∀ (l r : F), (tzLoop zinv z m l r).length = m := by
  induction m with
  | zero => intro l r; rfl
  | succ m ih => intro l r; simp [tzLoop, ih]

theorem txLoop_eq (x : F) (m : ℕ) : ∀ xi : F,
    txLoop x m xi = (List.range m).map fun i => xi * x ^ i := by
  induction m with
  | zero => intro xi; rfl
  | succ m ih =>
    intro xi
    rw [txLoop, ih, List.range_succ_eq_map, List.map_cons, List.map_map]
    congr 1
    · simp
    · apply List.map_congr_left; intro i _; simp [pow_succ]; ring

theorem zpow_sub_inv {z : F} (hz : z ≠ 0) (n i : ℕ) (hi : i < n) :
    z ^ (2 * n) * z⁻¹ * z⁻¹ ^ i = z ^ (2 * n - 1 - i) := by
  have : z ^ (2 * n) = z ^ (2 * n - 1 - i) * z ^ (i + 1) := by
    rw [← pow_add]; congr 1; omega
  rw [this, mul_assoc, ← pow_succ', mul_assoc, ← mul_pow, mul_inv_cancel₀ hz, one_pow, mul_one]

/-- A sum over all `4n` degrees, split into the four views. -/
theorem sum_views (n : ℕ) (f : ℕ → F) : ∑ k ∈ range (4 * n), f k =
    ∑ i ∈ range n, (f (2 * n - 1 - i) + f (2 * n + i) + f (4 * n - 1 - i) + f i) := by
  have h4 : 4 * n = n + n + n + n := by omega
  rw [h4, sum_range_add, sum_range_add, sum_range_add, sum_add_distrib, sum_add_distrib,
    sum_add_distrib]
  have e1 : ∑ i ∈ range n, f (2 * n - 1 - i) = ∑ i ∈ range n, f (n + i) := by
    rw [← sum_range_reflect]
    refine sum_congr rfl fun i hi => ?_
    have := mem_range.1 hi
    congr 1; omega
  have e2 : ∑ i ∈ range n, f (n + n + n + n - 1 - i) = ∑ i ∈ range n, f (n + n + n + i) := by
    rw [← sum_range_reflect]
    refine sum_congr rfl fun i hi => ?_
    have := mem_range.1 hi
    congr 1; omega
  rw [e1, e2, show 2 * n = n + n by omega]
  ring

/-- C14: the coefficients of `t(X, z)`: only the `c` wires have one, and at `z = 0`
none has. -/
theorem C14_tz_coeffs (n : ℕ) (z : F) : ∃ p, tz n z = some p ∧ WellFormed (4 * n) p ∧
    ∀ i < n, coeff p (4 * n - 1 - i) = -(z ^ (2 * n - 1 - i) + z ^ (2 * n + i)) ∧
      coeff p (2 * n - 1 - i) = 0 ∧ coeff p (2 * n + i) = 0 ∧ coeff p i = 0 := by
  unfold tz
  by_cases hz : z = 0
  · subst hz
    rw [if_neg (by simp)]
    obtain ⟨p, hp, hwf, hc⟩ := C13_wiring_build (F := F) n ⟨[], [], [], []⟩ (by simp) (by simp)
      (by simp) (by simp)
    refine ⟨p, hp, hwf, fun i hi => ?_⟩
    obtain ⟨h1, h2, h3, h4⟩ := hc i hi
    rw [h1, h2, h3, h4, zero_pow (by omega), zero_pow (by omega)]
    simp
  · rw [if_pos hz]
    obtain ⟨p, hp, hwf, hc⟩ := C13_wiring_build (F := F) n
      ⟨[], [], tzLoop z⁻¹ z n (-z ^ (2 * n) * z⁻¹) (-z ^ (2 * n)), []⟩ (by simp) (by simp)
      (by simp [tzLoop_length]) (by simp)
    refine ⟨p, hp, hwf, fun i hi => ?_⟩
    obtain ⟨h1, h2, h3, h4⟩ := hc i hi
    rw [h1, h2, h3, h4, tzLoop_getD, if_pos hi]
    refine ⟨?_, by simp, by simp, by simp⟩
    rw [← zpow_sub_inv hz n i hi, pow_add]
    ring

/-- C14: `tz` evaluates to `t(x, z)` at every `x`, for every `z` (zero included). -/
theorem C14_tz (n : ℕ) (x z : F) : ∃ p, tz n z = some p ∧ Sparse.eval (4 * n) p x = tDef n x z := by
  obtain ⟨p, hp, hwf, hc⟩ := C14_tz_coeffs n z
  refine ⟨p, hp, ?_⟩
  rw [C11_eval _ _ hwf, sum_views, tDef, ← sum_neg_distrib]
  refine sum_congr rfl fun i hi => ?_
  obtain ⟨h1, h2, h3, h4⟩ := hc i (mem_range.1 hi)
  rw [h1, h2, h3, h4]
  ring

/-- C14: `tx` evaluates to `t(x, z)` at every `z`, for every `x` (zero included). -/
theorem C14_tx (n : ℕ) (x z : F) : ∃ p, tx n x = some p ∧ Sparse.eval (4 * n) p z = tDef n x z := by
  unfold tx
  by_cases hx : x = 0
  · subst hx
    rw [if_neg (by simp)]
    obtain ⟨p, hp, hwf, hc⟩ := C13_wiring_build (F := F) n ⟨[], [], [], []⟩ (by simp) (by simp)
      (by simp) (by simp)
    refine ⟨p, hp, ?_⟩
    rw [C11_eval _ _ hwf, sum_views, tDef, ← sum_neg_distrib]
    refine sum_congr rfl fun i hi => ?_
    have hi := mem_range.1 hi
    obtain ⟨h1, h2, h3, h4⟩ := hc i hi
    rw [h1, h2, h3, h4, zero_pow (by omega)]
    simp
  · rw [if_pos hx]
    have hlen : (txLoop x n (-(x ^ (3 * n)))).reverse.length = n := by simp [txLoop_eq]
    have hget : ∀ i < n, (txLoop x n (-(x ^ (3 * n)))).reverse.getD i 0 = -x ^ (4 * n - 1 - i) := by
      intro i hi
      rw [txLoop_eq, List.getD_eq_getElem?_getD, List.getElem?_reverse (by simpa using hi)]
      simp only [List.length_map, List.length_range, List.getElem?_map]
      rw [List.getElem?_range (by omega)]
      simp only [Option.map_some, Option.getD_some]
      rw [neg_mul, ← pow_add]
      congr 2; omega
    obtain ⟨p, hp, hwf, hc⟩ := C13_wiring_build (F := F) n
      ⟨(txLoop x n (-(x ^ (3 * n)))).reverse, (txLoop x n (-(x ^ (3 * n)))).reverse, [], []⟩
      (by rw [hlen]) (by rw [hlen]) (by simp) (by simp)
    refine ⟨p, hp, ?_⟩
    rw [C11_eval _ _ hwf, sum_views, tDef, ← sum_neg_distrib]
    refine sum_congr rfl fun i hi => ?_
    have hi := mem_range.1 hi
    obtain ⟨h1, h2, h3, h4⟩ := hc i hi
    rw [h1, h2, h3, h4]
    simp only [hget i hi]
    simp
    ring

theorem txzLoop_eq (k : ℕ) : ∀ l r s t : F, txzLoop k l r s t =
    (l * ∑ i ∈ range (2 ^ k), s ^ i, r * ∑ i ∈ range (2 ^ k), t ^ i) := by
  induction k with
  | zero => intro l r s t; simp [txzLoop]
  | succ k ih =>
    intro l r s t
    have key : ∀ q : F, ∑ i ∈ range (2 ^ (k + 1)), q ^ i = (1 + q) * ∑ i ∈ range (2 ^ k), (q ^ 2) ^ i := by
      intro q
      have : ∀ m : ℕ, ∑ i ∈ range (2 * m), q ^ i = (1 + q) * ∑ i ∈ range m, (q ^ 2) ^ i := by
        intro m
        induction m with
        | zero => simp
        | succ m ih =>
          rw [show 2 * (m + 1) = 2 * m + 1 + 1 by ring, sum_range_succ, sum_range_succ, ih,
            sum_range_succ]
          rw [← pow_mul]
          ring
      rw [pow_succ', this]
    rw [txzLoop, ih, key s, key t]
    ext
    · simp only; ring
    · simp only; ring

/-- C14: the point evaluation `t(x, z)` never fails and equals the definition, for
every `x` and `z` (zero included). -/
theorem C14_txz (k : ℕ) (x z : F) : txz k x z = some (tDef (2 ^ k) x z) := by
  have hn : 0 < 2 ^ k := by positivity
  unfold txz
  by_cases h : x = 0 ∨ z = 0
  · rw [if_pos h, tDef]
    congr 1
    symm
    rw [neg_eq_zero]
    apply sum_eq_zero
    intro i hi
    have hi := mem_range.1 hi
    rcases h with h | h
    · subst h; rw [zero_pow (by omega), zero_mul]
    · subst h; rw [zero_pow (by omega), zero_pow (by omega)]; simp
  · rw [if_neg h]
    push Not at h
    obtain ⟨hx, hz⟩ := h
    unfold txzPredict
    rw [if_neg hx, if_neg hz]
    simp only [txzLoop_eq]
    congr 1
    rw [tDef, mul_sum, mul_sum, sum_mul, ← sum_add_distrib]
    congr 1
    refine sum_congr rfl fun i hi => ?_
    have hi := mem_range.1 hi
    have e1 : x ^ (4 * 2 ^ k - 1) = x ^ (4 * 2 ^ k - 1 - i) * x ^ i := by
      rw [← pow_add]; congr 1; omega
    have e2 : z ^ (2 * 2 ^ k) = z ^ (2 * 2 ^ k - 1 - i) * (z ^ i * z) := by
      rw [← pow_succ, ← pow_add]; congr 1; omega
    rw [pow_add z (2 * 2 ^ k) i, e1, mul_pow, mul_pow, inv_pow, inv_pow]
    have hxi : x ^ i ≠ 0 := pow_ne_zero _ hx
    have hzi : z ^ i ≠ 0 := pow_ne_zero _ hz
    rw [e2]
    field_simp
    ring

example : txz 1 (3 : ZMod 97) 5 = some (tDef 2 3 5) ∧ tDef 2 (3 : ZMod 97) 5 ≠ 0 :=
  ⟨C14_txz 1 3 5, by decide +kernel⟩

example : ((tz 2 (5 : ZMod 97)).map fun p => Sparse.eval 8 p 3) = txz 1 3 5 := by
  rw [C14_txz]
  obtain ⟨p, hp, hv⟩ := C14_tz 2 (3 : ZMod 97) 5
  rw [hp, Option.map_some, hv]
  rfl

end Ragu.Props
