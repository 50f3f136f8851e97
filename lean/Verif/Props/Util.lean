/-
Properties C01, C02, C03, C08.
-/
import Verif.Lemmas.TestField
import Verif.Model.Util
import Verif.Model.Coeff
import Verif.Spec.Poly
import Verif.Lemmas.Util
import Mathlib.Data.ZMod.Basic
import Mathlib.Algebra.Field.ZMod
import Mathlib.Algebra.CharP.Two
import Mathlib.Tactic.NormNum

namespace Ragu.Props
open Ragu Spec Finset

section
variable {F : Type*} [Field F]

/-- C01: `eval` is polynomial evaluation, for every coefficient list and point. -/
theorem C01_eval (coeffs : List F) (x : F) :
    Util.eval coeffs x = ∑ i ∈ range coeffs.length, coeffs.getD i 0 * x ^ i :=
  eval_eq_polyVal coeffs x

/-- C01: `dot` returns the inner product on equal lengths … -/
theorem C01_dot (a b : List F) (h : a.length = b.length) :
    Util.dot a b = some (∑ i ∈ range a.length, a.getD i 0 * b.getD i 0) := by
  simp only [Util.dot, h, if_true, foldl_add_eq, zero_add, zipWith_sum_eq a b h, innerProd,
    coeffAt]

/-- C01: … and panics exactly when the lengths differ. -/
theorem C01_dot_panics (a b : List F) : Util.dot a b = none ↔ a.length ≠ b.length := by
  unfold Util.dot; split <;> simp_all

/-- C02: `factor` returns a quotient with one coefficient fewer, and
`p(X) = q(X)·(X - b) + p(b)` at every point. -/
theorem C02_factor (a : List F) (b : F) (h : a ≠ []) :
    ∃ q, Util.factor a b = some q ∧ q.length + 1 = a.length ∧
      ∀ x, polyVal a x = polyVal q x * (x - b) + polyVal a b := by
  refine ⟨(Util.factorLoop (-b) 0 a.reverse).reverse, ?_, ?_, ?_⟩
  · simp [Util.factor, Util.factorIter, h]
  · have : 0 < a.length := List.length_pos_of_ne_nil h
    simp [factorLoop_length]; omega
  · intro x
    have := factorLoop_spec b 0 a.reverse x (by simpa using h)
    simpa using this

/-- C02: when `b` is a root the division is exact. -/
theorem C02_factor_exact (a : List F) (b : F) (h : a ≠ []) (hb : polyVal a b = 0) :
    ∃ q, Util.factor a b = some q ∧ ∀ x, polyVal a x = polyVal q x * (x - b) := by
  obtain ⟨q, h1, _, h2⟩ := C02_factor a b h
  exact ⟨q, h1, fun x => by rw [h2 x, hb, add_zero]⟩

/-- C02: `factor_iter` yields the same coefficients, highest degree first. -/
theorem C02_factor_iter (a : List F) (b : F) :
    Util.factorIter a b = (Util.factor a b).map List.reverse := by
  simp [Util.factor, Option.map_map]

/-- C02: both panic exactly on the empty list.  (The Rust doc comment says they
panic on degree-0 polynomials; the code accepts a one-element list.) -/
theorem C02_factor_panics (a : List F) (b : F) :
    (Util.factor a b = none ↔ a = []) ∧ (Util.factorIter a b = none ↔ a = []) := by
  constructor <;> by_cases h : a = [] <;> simp [Util.factor, Util.factorIter, h]

/-- C03: `geosum r m` is the geometric sum with `m` terms, for every `r`, `m`. -/
theorem C03_geosum (r : F) (m : ℕ) : Util.geosum r m = ∑ i ∈ range m, r ^ i := by
  simp [Util.geosum, geosumLoop_spec]

/-- C08: multiplication agrees with the field. -/
theorem C08_mul (a b : Coeff F) : (a.mul b).value = a.value * b.value := by
  cases a <;> cases b <;> simp [Coeff.mul, Coeff.value] <;> ring

/-- C08: addition agrees with the field. -/
theorem C08_add (a b : Coeff F) : (a.add b).value = a.value + b.value := by
  cases a <;> cases b <;> simp [Coeff.add, Coeff.value] <;> ring

/-- C08: conversion agrees with the field. -/
theorem C08_from (v : F) : (Coeff.ofField v).value = v := rfl

/-- C08: `is_zero` is exact in every field where `2 ≠ 0`. -/
theorem C08_is_zero [DecidableEq F] (h2 : (2 : F) ≠ 0) (a : Coeff F) :
    a.isZero = true ↔ a.value = 0 := by
  have : (1 : F) + 1 ≠ 0 := by rwa [one_add_one_eq_two]
  cases a <;> simp_all [Coeff.isZero, Coeff.value]

end

-- non-vacuity: a field with 2 ≠ 0, a non-empty list, equal lengths
example : (2 : ℚ) ≠ 0 := by norm_num
example : Util.factor ([-6, 1, 1] : List ℚ) 2 = some [3, 1] := by
  simp [Util.factor, Util.factorIter, Util.factorLoop]; norm_num
example : polyVal ([-6, 1, 1] : List ℚ) 2 = 0 := by
  norm_num [polyVal_cons]
example : Util.dot ([1, 2] : List ℚ) [3, 4] = some 11 := by norm_num [Util.dot]


/-- C08 boundary: in characteristic 2 the enum's `Two` represents zero but
`is_zero` answers `false`.  The hypothesis `2 ≠ 0` above cannot be dropped. -/
theorem C08_is_zero_char_two_fails :
    (Coeff.two : Coeff (ZMod 2)).value = 0 ∧ (Coeff.two : Coeff (ZMod 2)).isZero = false := by
  exact ⟨by decide, rfl⟩

end Ragu.Props
