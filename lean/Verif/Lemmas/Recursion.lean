/-
The folded polynomials of a fuse by values and by products.
-/
import Verif.Lemmas.Draws
import Verif.Lemmas.Quotient
import Verif.Props.Fold
import Verif.Spec.Verify

set_option linter.unusedSectionVars false

namespace Ragu.Props
open Ragu Ragu.Spec Ragu.Pcd Finset
variable {F G HC : Type} [Field F] [DecidableEq F] [Field G]

theorem getD_map_zero {α : Type} (f : α → F) (l : List α) (i : ℕ) :
    (l.map f).getD i 0 = (l[i]?).elim 0 f := by
  rw [List.getD_eq_getElem?_getD, List.getElem?_map]
  cases l[i]? <;> rfl

/-- The `i`-th of the polynomials `L`, zero after the last. -/
def nth {α : Type} (L : α → ℕ → F) (l : List α) (i k : ℕ) : F := (l.map fun c => L c k).getD i 0

theorem polyAt_nth {α : Type} (n : ℕ) (L : α → ℕ → F) (l : List α) (i : ℕ) (X : F) :
    polyAt n (nth L l i) X = (l.map fun c => polyAt n (L c) X).getD i 0 := by
  rw [getD_map_zero]
  simp only [polyAt, nth, getD_map_zero]
  cases l[i]? <;> simp

theorem polyAt_sum {ι : Type} (n : ℕ) (s : Finset ι) (c : ι → F) (p : ι → ℕ → F) (X : F) :
    polyAt n (fun k => ∑ i ∈ s, c i * p i k) X = ∑ i ∈ s, c i * polyAt n (p i) X := by
  simp only [polyAt, sum_mul, mul_sum]
  rw [sum_comm]
  exact sum_congr rfl fun i _ => sum_congr rfl fun k _ => by ring

/-- The polynomials folded in two layers. -/
def folded {α : Type} (m g : ℕ) (s t : F) (L : α → ℕ → F) (l : List α) (k : ℕ) : F :=
  twoLayer m g s t (l.map fun c => L c k)

theorem polyAt_folded {α : Type} (n m g : ℕ) (s t : F) (L : α → ℕ → F) (l : List α) (X : F) :
    polyAt n (folded m g s t L l) X = twoLayer m g s t (l.map fun c => polyAt n (L c) X) := by
  have : folded m g s t L l = fun k => ∑ K ∈ range g, t ^ (g - 1 - K) *
      (fun k => ∑ i ∈ range m, s ^ (m - 1 - i) * nth L l (K * m + i) k) k := rfl
  rw [this, polyAt_sum, twoLayer]
  refine sum_congr rfl fun K _ => ?_
  rw [polyAt_sum, groupSum]
  congr 1
  exact sum_congr rfl fun i _ => by rw [polyAt_nth]

theorem productOf_sums (n k : ℕ) (c d : ℕ → F) (p q : ℕ → ℕ → F) :
    productOf n (fun a => ∑ i ∈ range k, c i * p i a) (fun a => ∑ j ∈ range k, d j * q j a) =
      ∑ i ∈ range k, ∑ j ∈ range k, c i * d j * productOf n (p i) (q j) := by
  simp only [productOf, sum_mul, mul_sum]
  conv_rhs => rw [sum_comm]
  rw [sum_comm]
  refine sum_congr rfl fun i _ => ?_
  rw [sum_comm]
  exact sum_congr rfl fun j _ => sum_congr rfl fun a _ => by ring

/-- The product of two groups. -/
def groupProduct {α : Type} (n m : ℕ) (s t : F) (L R : α → ℕ → F) (l : List α) (K K' : ℕ) : F :=
  foldedClaim m s t fun i j => productOf n (nth L l (K * m + i)) (nth R l (K' * m + j))

theorem productOf_folded {α : Type} (n m g : ℕ) (s s' t t' : F) (L R : α → ℕ → F) (l : List α) :
    productOf n (folded m g s s' L l) (folded m g t t' R l) =
      foldedClaim g s' t' (groupProduct n m s t L R l) := by
  have e : ∀ (s s' : F) (L : α → ℕ → F), folded m g s s' L l = fun k => ∑ K ∈ range g,
      s' ^ (g - 1 - K) * (fun k => ∑ i ∈ range m, s ^ (m - 1 - i) * nth L l (K * m + i) k) k :=
    fun _ _ _ => rfl
  rw [e s s' L, e t t' R, productOf_sums, foldedClaim]
  refine sum_congr rfl fun K _ => sum_congr rfl fun K' _ => ?_
  rw [productOf_sums, groupProduct, foldedClaim]

/-- The difference between what the claims should be and what they are, for one group. -/
def groupDiff {α : Type} (n m : ℕ) (L R : α → ℕ → F) (l : List α) (errs : List (List F)) (ky : List F)
    (K i j : ℕ) : F :=
  claimMatrix m (errs.getD K []) ((List.range m).map fun i => ky.getD (K * m + i) 0) i j -
    productOf n (nth L l (K * m + i)) (nth R l (K * m + j))

/-- The difference for the groups. -/
def outerDiff {α : Type} (n m g : ℕ) (mu nu : F) (L R : α → ℕ → F) (l : List α)
    (errs : List (List F)) (oe ky : List F) (K K' : ℕ) : F :=
  claimMatrix g oe ((List.range g).map (groupClaim m mu nu errs ky)) K K' -
    groupProduct n m mu⁻¹ (mu * nu) L R l K K'

theorem outerDiff_diag {α : Type} {n m g : ℕ} {mu nu : F} {L R : α → ℕ → F} {l : List α}
    {errs : List (List F)} {oe ky : List F} {K : ℕ} (hK : K < g) :
    outerDiff n m g mu nu L R l errs oe ky K K =
      foldedClaim m mu⁻¹ (mu * nu) (groupDiff n m L R l errs ky K) := by
  rw [outerDiff, claimMatrix, if_pos rfl, List.getD_eq_getElem?_getD, List.getElem?_map,
    List.getElem?_range hK]
  simp only [Option.map_some, Option.getD_some, groupClaim, groupProduct]
  rw [foldedClaim_sub]
  rfl

theorem groupDiff_diag {α : Type} {n m : ℕ} {L R : α → ℕ → F} {l : List α}
    {errs : List (List F)} {ky : List F} {K i : ℕ} (hi : i < m) :
    groupDiff n m L R l errs ky K i i =
      ky.getD (K * m + i) 0 - productOf n (nth L l (K * m + i)) (nth R l (K * m + i)) := by
  rw [groupDiff, claimMatrix, if_pos rfl, List.getD_eq_getElem?_getD, List.getElem?_map,
    List.getElem?_range hi]
  rfl

theorem folded_diff {α : Type} {n m g : ℕ} {mu nu mu' nu' : F} {L R : α → ℕ → F} {l : List α}
    {errs : List (List F)} {oe ky : List F}
    (h : productOf n (folded m g mu⁻¹ mu'⁻¹ L l) (folded m g (mu * nu) (mu' * nu') R l) =
      stepClaim m g mu nu mu' nu' errs oe ky) :
    foldedClaim g mu'⁻¹ (mu' * nu') (outerDiff n m g mu nu L R l errs oe ky) = 0 := by
  rw [productOf_folded, stepClaim] at h
  have := foldedClaim_sub g mu'⁻¹ (mu' * nu')
    (claimMatrix g oe ((List.range g).map (groupClaim m mu nu errs ky)))
    (groupProduct n m mu⁻¹ (mu * nu) L R l)
  rw [h, sub_self] at this
  exact this.symm

/-- A wrong diagonal entry survives folding for all but few pairs. -/
theorem pairs_le {k : ℕ} {D : ℕ → ℕ → F} (hbad : ∃ i < k, D i i ≠ 0) (A : Finset F) :
    ((A ×ˢ A).filter fun p => p.1 ≠ 0 ∧ foldedClaim k p.1⁻¹ (p.1 * p.2) D = 0).card ≤
      (2 * (k - 1) + 1) * A.card := by
  obtain ⟨i, hi, hne⟩ := hbad
  have h1 := card_pairs hi hi hne (A.erase 0) (notMem_erase _ _)
  -- pairs whose second entry is zero are counted apart
  have h2 : ((A ×ˢ A).filter fun p : F × F => p.2 = 0).card ≤ A.card := by
    refine card_le_card_of_injOn Prod.fst ?_ ?_
    · intro p hp
      exact (mem_product.1 (mem_filter.1 hp).1).1
    · rintro ⟨a, b⟩ hp ⟨a', b'⟩ hp' he
      have e1 := (mem_filter.1 hp).2
      have e2 := (mem_filter.1 hp').2
      simp only at e1 e2 he
      rw [e1, e2, he]
  calc _ ≤ ((((A.erase 0) ×ˢ (A.erase 0)).filter fun p =>
          foldedClaim k p.1⁻¹ (p.1 * p.2) D = 0) ∪ (A ×ˢ A).filter fun p : F × F => p.2 = 0).card := by
        refine card_le_card fun p hp => ?_
        obtain ⟨hp, h3, h4⟩ := mem_filter.1 hp
        rw [mem_product] at hp
        rw [mem_union, mem_filter, mem_filter, mem_product, mem_product]
        by_cases h5 : p.2 = 0
        · exact .inr ⟨hp, h5⟩
        · exact .inl ⟨⟨mem_erase.2 ⟨h3, hp.1⟩, mem_erase.2 ⟨h5, hp.2⟩⟩, h4⟩
    _ ≤ 2 * (k - 1) * (A.erase 0).card + A.card := (card_union_le _ _).trans (add_le_add h1 h2)
    _ ≤ 2 * (k - 1) * A.card + A.card :=
        Nat.add_le_add_right (Nat.mul_le_mul_left _ (card_le_card (erase_subset _ _))) _
    _ = _ := by ring

/-! ### The values of the claims -/

theorem polyAt_tCoeff (n : ℕ) (x z : F) : polyAt n (tCoeff n z) x = tDef n x z := by
  rw [polyAt, ← sum_range_reflect, tDef, ← sum_neg_distrib]
  have hsplit : 4 * n = n + 3 * n := by omega
  conv_lhs => rw [hsplit, sum_range_add]
  rw [sum_eq_zero (s := range (3 * n)), add_zero]
  · refine sum_congr rfl fun i hi => ?_
    have := mem_range.1 hi
    rw [tCoeff, if_pos (by omega), show 4 * n - 1 - (n + 3 * n - 1 - i) = i by omega,
      show n + 3 * n - 1 - i = 4 * n - 1 - i by omega]
    ring
  · intro i hi
    have := mem_range.1 hi
    rw [tCoeff, if_neg (by omega), zero_mul]

theorem polyAt_sumCoeff (n : ℕ) (rxs : List (Sparse.Poly F)) (x : F) :
    polyAt n (sumCoeff rxs) x = (rxs.map fun p => polyAt n (coeff p) x).sum := by
  induction rxs with
  | nil => simp [polyAt, sumCoeff]
  | cons p rxs ih =>
    rw [List.map_cons, List.sum_cons, ← ih, polyAt, polyAt, polyAt, ← sum_add_distrib]
    refine sum_congr rfl fun k _ => ?_
    simp only [sumCoeff, List.map_cons, List.sum_cons]
    ring

theorem polyAt_nil (n : ℕ) (x : F) : polyAt n (coeff ([] : Sparse.Poly F)) x = 0 := by
  refine sum_eq_zero fun k _ => ?_
  rw [show coeff ([] : Sparse.Poly F) k = 0 from by simp [coeff], zero_mul]

theorem polyAt_foldCoeff (n : ℕ) (z : F) (rxs : List (Sparse.Poly F)) (x : F) :
    polyAt n (foldCoeff z rxs) x = descending z (rxs.map fun p => polyAt n (coeff p) x) := by
  have : foldCoeff z rxs = fun k => ∑ i ∈ range rxs.length, z ^ (rxs.length - 1 - i) *
    (fun i k => coeff (rxs.getD i []) k) i k := rfl
  rw [this, polyAt_sum, descending, List.length_map]
  refine sum_congr rfl fun i _ => ?_
  rw [getD_map_zero, List.getD_eq_getElem?_getD]
  cases rxs[i]? with
  | none => rw [Option.getD_none]; simp only [Option.elim]; rw [← polyAt_nil n x]
  | some p => rfl

theorem polyAt_scale (n : ℕ) (f g h : ℕ → F) (x z : F) :
    polyAt n (fun k => f k * z ^ k + g k + h k) x = polyAt n f (x * z) + polyAt n g x + polyAt n h x := by
  simp only [polyAt, ← sum_add_distrib, mul_pow]
  exact sum_congr rfl fun k _ => by ring

/-- The values of a claim's polynomials. -/
theorem claim_values (n : ℕ) (s : ℕ → ℕ → F) (x z : F) (c : Claim (Sparse.Poly F) ℕ) :
    let v := claimValue (fun p => polyAt n (coeff p) (x * z)) (fun p => polyAt n (coeff p) x)
      (fun i => polyAt n (s i) x) c
    polyAt n (claimLeft z c) (x * z) = leftValue z v ∧
    polyAt n (claimRight s (tCoeff n z) z c) x =
      rightValue (fun id => polyAt n (s (registryIndex id)) x) (tDef n x z) v := by
  cases c with
  | raw a b => exact ⟨rfl, rfl⟩
  | circuit i rx =>
    refine ⟨rfl, ?_⟩
    rw [← polyAt_tCoeff]
    exact polyAt_scale n (coeff rx) (s i) (tCoeff n z) x z
  | internal id rxs =>
    refine ⟨polyAt_sumCoeff n rxs (x * z), ?_⟩
    simp only [claimValue, rightValue]
    rw [← polyAt_tCoeff, ← polyAt_sumCoeff]
    exact polyAt_scale n (sumCoeff rxs) (s (registryIndex id)) (tCoeff n z) x z
  | bonding id rxs => exact ⟨polyAt_foldCoeff n z rxs (x * z), rfl⟩

end Ragu.Props
