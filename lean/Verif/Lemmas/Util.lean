import Verif.Model.Util
import Verif.Spec.Poly
import Mathlib.Algebra.BigOperators.Ring.Finset
import Mathlib.Algebra.BigOperators.Intervals
import Mathlib.Tactic.Ring
import Mathlib.Tactic.LinearCombination

namespace Ragu
open Finset Spec

variable {F : Type*} [Field F]

@[simp] theorem polyVal_nil (x : F) : polyVal ([] : List F) x = 0 := by simp [polyVal]

theorem polyVal_cons (c : F) (l : List F) (x : F) :
    polyVal (c :: l) x = c + x * polyVal l x := by
  unfold polyVal
  rw [List.length_cons, sum_range_succ', mul_sum, add_comm]
  congr 1
  · simp [coeffAt]
  · apply sum_congr rfl
    intro i _
    simp [coeffAt, pow_succ]; ring

theorem polyVal_append (a b : List F) (x : F) :
    polyVal (a ++ b) x = polyVal a x + x ^ a.length * polyVal b x := by
  induction a with
  | nil => simp
  | cons c l ih => simp [polyVal_cons, ih, pow_succ]; ring

theorem polyVal_replicate_zero (n : ℕ) (x : F) : polyVal (List.replicate n (0:F)) x = 0 := by
  induction n with
  | zero => simp
  | succ n ih => simp [List.replicate_succ, polyVal_cons, ih]

theorem eval_eq_foldr (l : List F) (x : F) :
    Util.eval l x = l.foldr (fun c r => r * x + c) 0 := by
  simp [Util.eval, List.foldl_reverse]

theorem eval_nil (x : F) : Util.eval ([] : List F) x = 0 := by simp [eval_eq_foldr]
theorem eval_cons (c : F) (l : List F) (x : F) :
    Util.eval (c :: l) x = Util.eval l x * x + c := by simp [eval_eq_foldr]

theorem eval_eq_polyVal (l : List F) (x : F) : Util.eval l x = polyVal l x := by
  induction l with
  | nil => simp [eval_nil]
  | cons c l ih => rw [eval_cons, polyVal_cons, ih]; ring

theorem foldl_add_eq (l : List F) (s : F) :
    l.foldl (fun acc x => acc + x) s = s + l.sum := by
  induction l generalizing s with
  | nil => simp
  | cons a l ih => simp [ih, add_assoc]

theorem zipWith_sum_eq (a b : List F) (h : a.length = b.length) :
    (List.zipWith (fun x y => x * y) a b).sum = innerProd a b := by
  induction a generalizing b with
  | nil => simp [innerProd]
  | cons x a ih =>
    cases b with
    | nil => simp at h
    | cons y b =>
      simp only [List.length_cons, Nat.add_right_cancel_iff] at h
      simp only [List.zipWith_cons_cons, List.sum_cons, ih b h, innerProd, List.length_cons,
        sum_range_succ']
      simp [coeffAt, add_comm]

/-- Loop invariant of `factorLoop`: with `tmp` carried, the outputs satisfy the
division identity for the remaining (reversed) coefficients. -/
theorem factorLoop_spec (b tmp : F) (l : List F) (x : F) (h : l ≠ []) :
    polyVal l.reverse x - tmp * x ^ (l.length - 1) =
      polyVal (Util.factorLoop (-b) tmp l).reverse x * (x - b) +
        (polyVal l.reverse b - tmp * b ^ (l.length - 1)) := by
  induction l generalizing tmp with
  | nil => exact absurd rfl h
  | cons c l ih =>
    cases l with
    | nil => simp [Util.factorLoop, polyVal_cons]
    | cons d l =>
      have hih := ih ((c - tmp) * -b) (by simp)
      simp only [Util.factorLoop]
      rw [List.reverse_cons, polyVal_append]
      rw [List.reverse_cons (a := c - tmp), polyVal_append, polyVal_append]
      have hlen : (Util.factorLoop (-b) ((c - tmp) * -b) (d :: l)).length = l.length := by
        clear ih hih h
        generalize (c - tmp) * -b = t
        induction l generalizing d t with
        | nil => simp [Util.factorLoop]
        | cons e l ih => simp [Util.factorLoop, ih]
      simp only [List.length_reverse, List.length_cons, Nat.add_sub_cancel, hlen, polyVal_cons,
        polyVal_nil] at hih ⊢
      linear_combination hih

theorem factorLoop_length (nb tmp : F) (l : List F) :
    (Util.factorLoop nb tmp l).length = l.length - 1 := by
  induction l generalizing tmp with
  | nil => simp [Util.factorLoop]
  | cons c l ih =>
    cases l with
    | nil => simp [Util.factorLoop]
    | cons d l => simp [Util.factorLoop, ih]

theorem geom_double (r : F) (k : ℕ) :
    ∑ i ∈ range (2 * k), r ^ i = (1 + r) * ∑ i ∈ range k, (r * r) ^ i := by
  induction k with
  | zero => simp
  | succ k ih =>
    rw [show 2 * (k + 1) = 2 * k + 1 + 1 by ring, sum_range_succ, sum_range_succ, ih,
      sum_range_succ, ← pow_two, ← pow_mul]
    ring

theorem geosumLoop_spec (r : F) (m : ℕ) (block sum step : F) :
    Util.geosumLoop r m block sum step = sum + step * block * ∑ i ∈ range m, r ^ i := by
  induction m using Nat.strongRecOn generalizing r block sum step with
  | ind m ih =>
    rw [Util.geosumLoop]
    split
    · next h => simp [h]
    · next h =>
      rw [ih (m / 2) (by omega)]
      by_cases hodd : m % 2 = 1
      · simp only [hodd, if_true]
        obtain ⟨k, rfl⟩ : ∃ k, m = 2 * k + 1 := ⟨m / 2, by omega⟩
        have : (2 * k + 1) / 2 = k := by omega
        rw [this, sum_range_succ', geosum_aux r k]
        ring
      · simp only [hodd, if_false]
        obtain ⟨k, rfl⟩ : ∃ k, m = 2 * k := ⟨m / 2, by omega⟩
        have : (2 * k) / 2 = k := by omega
        rw [this, geom_double]
        ring
where
  geosum_aux (r : F) (k : ℕ) : ∑ i ∈ range (2 * k), r ^ (i + 1) =
      r * ((1 + r) * ∑ i ∈ range k, (r * r) ^ i) := by
    rw [← geom_double, mul_sum]
    exact sum_congr rfl fun i _ => by rw [pow_succ]; ring

end Ragu
