/-
Certificates for multiples of a point of y² = x³ + b, checked modulo a number `N` and valid in
every field in which `N` is zero; the number of points of such a curve; and its endomorphism.
-/
import Verif.Lemmas.PrimeCert
import Verif.Props.Point
import Mathlib.GroupTheory.OrderOfElement
import Mathlib.GroupTheory.Perm.Cycle.Type
import Mathlib.GroupTheory.SpecificGroups.Cyclic

set_option linter.unusedSectionVars false
namespace Ragu.Cert
open Ragu.Props WeierstrassCurve.Affine

/-- `a - b` modulo `N`. -/
def subMod (N a b : ℕ) : ℕ := (a + (N - b % N)) % N

/-- Follows a chain of doublings (`false`) and additions of `(gx, gy)` (`true`) from `k` times the
point at `(x, y)`. Each step names the inverse it divides by. -/
def chain (N gx gy tk tx ty : ℕ) : List (Bool × ℕ) → ℕ → ℕ → ℕ → Bool
  | [], k, x, y => k == tk && (x == tx && y == ty)
  | (false, inv) :: ops, k, x, y =>
    inv * (2 * y) % N == 1 &&
      chain N gx gy tk tx ty ops (2 * k)
        (subMod N ((3 * x * x * inv % N) * (3 * x * x * inv % N)) (x + x))
        (subMod N ((3 * x * x * inv % N) * subMod N x
          (subMod N ((3 * x * x * inv % N) * (3 * x * x * inv % N)) (x + x))) y)
  | (true, inv) :: ops, k, x, y =>
    inv * subMod N x gx % N == 1 &&
      chain N gx gy tk tx ty ops (k + 1)
        (subMod N ((subMod N y gy * inv % N) * (subMod N y gy * inv % N)) (x + gx))
        (subMod N ((subMod N y gy * inv % N) * subMod N x
          (subMod N ((subMod N y gy * inv % N) * (subMod N y gy * inv % N)) (x + gx))) y)

section
variable {K : Type} [Field K] [DecidableEq K] {N : ℕ}

theorem cast_mod (hN : (N : K) = 0) (a : ℕ) : ((a % N : ℕ) : K) = a := by
  conv_rhs => rw [← Nat.div_add_mod a N]
  push_cast
  rw [hN]
  ring

theorem cast_subMod (h0 : 0 < N) (hN : (N : K) = 0) (a b : ℕ) :
    ((subMod N a b : ℕ) : K) = a - b := by
  rw [subMod, cast_mod hN, Nat.cast_add, Nat.cast_sub (Nat.mod_lt b h0).le, cast_mod hN, hN]
  ring

theorem cast_eq_one (hN : (N : K) = 0) {a : ℕ} (h : a % N = 1) : (a : K) = 1 := by
  rw [← cast_mod hN, h, Nat.cast_one]

/-- Doubling by the formulas. -/
theorem double_some {b x y inv : K} (hi : inv * (2 * y) = 1) (h : (curve b).Nonsingular x y)
    {x' y' : K} (hx : x' = (3 * x * x * inv) * (3 * x * x * inv) - (x + x))
    (hy : y' = (3 * x * x * inv) * (x - x') - y) :
    ∃ h' : (curve b).Nonsingular x' y', (.some x y h : (curve b).Point) + .some x y h =
      .some x' y' h' := by
  have hyn : y ≠ (curve b).negY x y := by
    rw [negY_curve]
    intro e
    have : 2 * y = 0 := by linear_combination e
    rw [this, mul_zero] at hi
    exact zero_ne_one hi
  have hy2 : y - (curve b).negY x y ≠ 0 := sub_ne_zero.2 hyn
  have hs : (curve b).slope x x y y = 3 * x * x * inv := by
    rw [slope_of_Y_ne rfl hyn, div_eq_iff hy2, negY_curve]
    simp only [curve]
    linear_combination (-3 * x ^ 2) * hi
  have hX : (curve b).addX x x ((curve b).slope x x y y) = x' := by
    rw [hs, hx, addX]; simp only [curve]; ring
  have hY : (curve b).addY x x y ((curve b).slope x x y y) = y' := by
    rw [addY, negAddY, negY_curve, hX, hs, hy]; ring
  refine ⟨?_, ?_⟩
  · rw [← hX, ← hY]; exact nonsingular_add h h fun e => hyn e.2
  · rw [Point.add_self_of_Y_ne hyn]
    congr 1

/-- Addition by the formulas. -/
theorem add_some {b x y gx gy inv : K} (hi : inv * (x - gx) = 1) (h : (curve b).Nonsingular x y)
    (hg : (curve b).Nonsingular gx gy) {x' y' : K}
    (hx : x' = ((y - gy) * inv) * ((y - gy) * inv) - (x + gx))
    (hy : y' = ((y - gy) * inv) * (x - x') - y) :
    ∃ h' : (curve b).Nonsingular x' y', (.some x y h : (curve b).Point) + .some gx gy hg =
      .some x' y' h' := by
  have hxn : x ≠ gx := by
    rintro rfl
    rw [sub_self, mul_zero] at hi
    exact zero_ne_one hi
  have hs : (curve b).slope x gx y gy = (y - gy) * inv := by
    rw [slope_of_X_ne hxn, div_eq_iff (sub_ne_zero.2 hxn)]
    linear_combination (-(y - gy)) * hi
  have hX : (curve b).addX x gx ((curve b).slope x gx y gy) = x' := by
    rw [hs, hx, addX]; simp only [curve]; ring
  have hY : (curve b).addY x gx y ((curve b).slope x gx y gy) = y' := by
    rw [addY, negAddY, negY_curve, hX, hs, hy]; ring
  refine ⟨?_, ?_⟩
  · rw [← hX, ← hY]; exact nonsingular_add h hg fun e => hxn e.1
  · rw [Point.add_of_X_ne hxn]
    congr 1

theorem chain_sound (h0 : 0 < N) (hN : (N : K) = 0) {b : K} {gx gy tk tx ty : ℕ}
    (hg : (curve b).Nonsingular (gx : K) (gy : K)) : ∀ (ops : List (Bool × ℕ)) (k x y : ℕ),
    chain N gx gy tk tx ty ops k x y = true →
    (∃ h, k • (.some (gx : K) (gy : K) hg : (curve b).Point) = .some (x : K) (y : K) h) →
    ∃ h, tk • (.some (gx : K) (gy : K) hg : (curve b).Point) = .some (tx : K) (ty : K) h
  | [], k, x, y, hc, hk => by
    simp only [chain, Bool.and_eq_true, beq_iff_eq] at hc
    obtain ⟨rfl, rfl, rfl⟩ := hc
    exact hk
  | (false, inv) :: ops, k, x, y, hc, ⟨h, hk⟩ => by
    simp only [chain, Bool.and_eq_true, beq_iff_eq] at hc
    refine chain_sound h0 hN hg ops _ _ _ hc.2 ?_
    have hi := cast_eq_one (K := K) hN hc.1
    push_cast at hi
    rw [two_mul k, add_nsmul, hk]
    refine double_some hi h ?_ ?_
    · rw [cast_subMod h0 hN]; push_cast; rw [cast_mod hN]; push_cast; ring
    · rw [cast_subMod h0 hN]; push_cast; rw [cast_mod hN, cast_subMod h0 hN x]; push_cast; ring
  | (true, inv) :: ops, k, x, y, hc, ⟨h, hk⟩ => by
    simp only [chain, Bool.and_eq_true, beq_iff_eq] at hc
    refine chain_sound h0 hN hg ops _ _ _ hc.2 ?_
    have hi := cast_eq_one (K := K) hN hc.1
    push_cast at hi
    rw [cast_subMod h0 hN] at hi
    rw [add_nsmul, one_nsmul, hk]
    refine add_some hi h hg ?_ ?_
    · rw [cast_subMod h0 hN]; push_cast; rw [cast_mod hN]; push_cast; rw [cast_subMod h0 hN y]
    · rw [cast_subMod h0 hN]; push_cast; rw [cast_mod hN, cast_subMod h0 hN x]; push_cast
      rw [cast_subMod h0 hN y]

/-! ### The number of points -/

/-- A point is determined by its abscissa and one bit. -/
noncomputable def pointCode (b : K) : (curve b).Point → Option (K × Bool) := by
  classical
  exact fun P => match P with
    | .zero => none
    | .some x y _ => some (x, decide (y = Classical.epsilon fun s => s ^ 2 = x ^ 3 + b))

theorem pointCode_injective (b : K) : Function.Injective (pointCode b) := by
  classical
  intro P Q h
  rcases P with _ | ⟨x, y, hp⟩ <;> rcases Q with _ | ⟨x', y', hq⟩
  · rfl
  · simp [pointCode] at h
  · simp [pointCode] at h
  · simp only [pointCode, Option.some.injEq, Prod.mk.injEq] at h
    obtain ⟨rfl, h⟩ := h
    have e1 := (equation_curve b x y).1 hp.1
    have e2 := (equation_curve b x y').1 hq.1
    set s := Classical.epsilon fun s : K => s ^ 2 = x ^ 3 + b with hs
    have e3 : s ^ 2 = x ^ 3 + b := Classical.epsilon_spec (p := fun s : K => s ^ 2 = x ^ 3 + b) ⟨y, e1⟩
    have : y = y' := by
      by_cases hy : y = s
      · have hy' : y' = s := by simpa [hy] using h.symm
        rw [hy, hy']
      · have hy' : y' ≠ s := by
          intro e; simp [hy, e] at h
        have n1 : y = -s := by
          rcases sq_eq_sq_iff_eq_or_eq_neg.1 (e1.trans e3.symm) with h | h
          · exact absurd h hy
          · exact h
        have n2 : y' = -s := by
          rcases sq_eq_sq_iff_eq_or_eq_neg.1 (e2.trans e3.symm) with h | h
          · exact absurd h hy'
          · exact h
        rw [n1, n2]
    subst this
    rfl

instance [Finite K] (b : K) : Finite (curve b).Point := Finite.of_injective _ (pointCode_injective b)

theorem card_points_le [Finite K] (b : K) : Nat.card (curve b).Point ≤ 2 * Nat.card K + 1 := by
  have := Nat.card_le_card_of_injective _ (pointCode_injective b)
  have e : Nat.card (Option (K × Bool)) = 2 * Nat.card K + 1 := by
    rw [Finite.card_option, Nat.card_prod, Nat.card_eq_fintype_card (α := Bool), Fintype.card_bool,
      mul_comm]
  omega

/-- A point of prime order `n` forces `n` to divide the number of points. -/
theorem order_dvd_card [Finite K] {b : K} {n : ℕ} (hn : n.Prime) {G : (curve b).Point} (hG : G ≠ 0)
    (h : n • G = 0) : n ∣ Nat.card (curve b).Point := by
  rw [← addOrderOf_eq_prime (hp := ⟨hn⟩) h hG]
  exact addOrderOf_dvd_natCard G

/-- There is no point of order two when `-b` is not a cube. -/
theorem two_not_dvd_card [Finite K] {b : K} (h2 : (2 : K) ≠ 0) (hc : ∀ x : K, x ^ 3 + b ≠ 0) :
    ¬ 2 ∣ Nat.card (curve b).Point := by
  intro hd
  have : Fact (Nat.Prime 2) := ⟨Nat.prime_two⟩
  obtain ⟨P, hP⟩ := exists_prime_addOrderOf_dvd_card' 2 hd
  rcases P with _ | ⟨x, y, h⟩
  · have : addOrderOf (0 : (curve b).Point) = 2 := hP
    simp at this
  · have h1 := addOrderOf_nsmul_eq_zero (.some x y h : (curve b).Point)
    rw [hP, two_nsmul] at h1
    have h3 := (equation_curve b x y).1 h.1
    by_cases hy : y = 0
    · subst hy
      exact hc x (by linear_combination -h3)
    · have hyn : y ≠ (curve b).negY x y := by
        rw [negY_curve]
        intro e
        exact (mul_ne_zero h2 hy) (by linear_combination e)
      rw [Point.add_self_of_Y_ne hyn] at h1
      exact absurd h1 (Point.some_ne_zero _)

/-! ### The endomorphism -/

theorem nonsingular_endo {b zeta : K} (hb : GoodCurve b) (hz : zeta ^ 3 = 1) {x y : K}
    (h : (curve b).Nonsingular x y) : (curve b).Nonsingular (zeta * x) y := by
  refine nonsingular_curve hb ?_
  rw [(equation_curve b x y).1 h.1]
  linear_combination (-x ^ 3) * hz

/-- `(x, y) ↦ (ζx, y)`. -/
def endo {b zeta : K} (hb : GoodCurve b) (hz : zeta ^ 3 = 1) : (curve b).Point → (curve b).Point
  | .zero => .zero
  | .some x y h => .some (zeta * x) y (nonsingular_endo hb hz h)

theorem endo_add {b zeta : K} (hb : GoodCurve b) (hz : zeta ^ 3 = 1) (P Q : (curve b).Point) :
    endo hb hz (P + Q) = endo hb hz P + endo hb hz Q := by
  have z0 : zeta ≠ 0 := by rintro rfl; simp at hz
  rcases P with _ | ⟨x, y, hp⟩
  · change endo hb hz (0 + Q) = 0 + endo hb hz Q
    rw [zero_add, zero_add]
  rcases Q with _ | ⟨x', y', hq⟩
  · change endo hb hz (_ + 0) = endo hb hz _ + 0
    rw [add_zero, add_zero]
  by_cases hx : x = x'
  · subst hx
    by_cases hy : y = (curve b).negY x y'
    · rw [Point.add_of_Y_eq rfl hy]
      simp only [endo]
      rw [Point.add_of_Y_eq rfl (by rw [negY_curve] at hy ⊢; exact hy)]
      rfl
    · have hyy : y = y' := Y_eq_of_Y_ne hp.1 hq.1 rfl hy
      subst hyy
      have hy0 : 2 * y ≠ 0 := by
        intro e
        apply hy
        rw [negY_curve]
        linear_combination e
      have hi : (2 * y)⁻¹ * (2 * y) = 1 := inv_mul_cancel₀ hy0
      obtain ⟨h1, e1⟩ := double_some hi hp rfl rfl
      obtain ⟨h2, e2⟩ := double_some hi (nonsingular_endo hb hz hp) rfl rfl
      rw [e1]
      simp only [endo]
      rw [e2]
      have hX : zeta * (3 * x * x * (2 * y)⁻¹ * (3 * x * x * (2 * y)⁻¹) - (x + x)) =
          3 * (zeta * x) * (zeta * x) * (2 * y)⁻¹ * (3 * (zeta * x) * (zeta * x) * (2 * y)⁻¹) -
            (zeta * x + zeta * x) := by
        linear_combination (-(zeta * (3 * x * x * (2 * y)⁻¹ * (3 * x * x * (2 * y)⁻¹)))) * hz
      congr 1
      rw [← hX]
      linear_combination (-(3 * x * x * (2 * y)⁻¹ *
        (x - (3 * x * x * (2 * y)⁻¹ * (3 * x * x * (2 * y)⁻¹) - (x + x))))) * hz
  · have hi : (x - x')⁻¹ * (x - x') = 1 := inv_mul_cancel₀ (sub_ne_zero.2 hx)
    have hi' : (zeta ^ 2 * (x - x')⁻¹) * (zeta * x - zeta * x') = 1 := by
      linear_combination (x - x')⁻¹ * (x - x') * hz + hi
    obtain ⟨h1, e1⟩ := add_some hi hp hq rfl rfl
    obtain ⟨h2, e2⟩ := add_some hi' (nonsingular_endo hb hz hp) (nonsingular_endo hb hz hq) rfl rfl
    rw [e1]
    simp only [endo]
    rw [e2]
    have hX : zeta * ((y - y') * (x - x')⁻¹ * ((y - y') * (x - x')⁻¹) - (x + x')) =
        (y - y') * (zeta ^ 2 * (x - x')⁻¹) * ((y - y') * (zeta ^ 2 * (x - x')⁻¹)) -
          (zeta * x + zeta * x') := by
      linear_combination (-(zeta * ((y - y') * (x - x')⁻¹ * ((y - y') * (x - x')⁻¹)))) * hz
    congr 1
    rw [← hX]
    linear_combination (-((y - y') * (x - x')⁻¹ *
      (x - ((y - y') * (x - x')⁻¹ * ((y - y') * (x - x')⁻¹) - (x + x'))))) * hz

end
end Ragu.Cert
