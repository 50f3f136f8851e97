/-
Counting the challenge tuples for which something bad happens in one round.
-/
import Verif.Spec.Recursion
import Mathlib.Data.Fintype.Pi
import Mathlib.Algebra.BigOperators.Fin
import Mathlib.Data.Fintype.BigOperators
import Mathlib.Algebra.Polynomial.Roots
import Mathlib.Algebra.Polynomial.Div
import Mathlib.Algebra.Order.BigOperators.Group.Finset
import Mathlib.Algebra.BigOperators.Field

set_option linter.unusedSectionVars false

namespace Ragu.Spec
open Finset Function
variable {F : Type} [Field F] [DecidableEq F]

theorem draws_card (A B : Finset F) : (draws A B).card = A.card ^ 10 * B.card := by
  rw [draws, Fintype.card_piFinset]
  simp only [Fin.prod_univ_succ, Fin.prod_univ_zero]
  simp [Fin.ext_iff]
  ring

theorem upTo_update (c : Draw F) (k : ℕ) (i : Fin 11) (a : F) (h : k ≤ i) :
    Draw.upTo (update c i a) k = Draw.upTo c k := by
  apply List.ext_getElem
  · simp [Draw.upTo]
  · intro j h1 h2
    have hj : j < k := by
      simp only [Draw.upTo, List.length_take, List.length_ofFn] at h1
      omega
    simp only [Draw.upTo, List.getElem_take, List.getElem_ofFn]
    rw [update_of_ne]
    intro he
    have := congrArg Fin.val he
    simp only at this
    omega

open Classical in
/-- A fibrewise bound: each way of setting `f c` leaves at most `d` bad tuples. -/
theorem count_fibre {T : Fin 11 → Finset F} (Q : Draw F → Prop) (i : Fin 11) (d : ℕ)
    (h : ∀ c, ((T i).filter fun a => Q (update c i a)).card ≤ d) :
    ((Fintype.piFinset T).filter Q).card ≤ d * ∏ j ∈ univ.erase i, (T j).card := by
  have := Finset.card_le_mul_card_image_of_maps_to (f := fun c : Draw F => update c i 0)
    (s := (Fintype.piFinset T).filter Q) (t := Fintype.piFinset (update T i {0})) (by
      intro c hc
      rw [mem_filter, Fintype.mem_piFinset] at hc
      rw [Fintype.mem_piFinset]
      intro j
      by_cases hj : j = i
      · subst hj; simp
      · simp only [update_of_ne hj]; exact hc.1 j) d (by
      intro b _
      refine le_trans (card_le_card_of_injOn (fun c => c i) ?_ ?_) (h b)
      · intro c hc
        simp only [coe_filter, mem_filter, Fintype.mem_piFinset, Set.mem_ofPred_eq] at hc
        simp only [coe_filter, Set.mem_ofPred_eq]
        refine ⟨hc.1.1 i, ?_⟩
        rw [← hc.2]
        simpa using hc.1.2
      · intro c hc c' hc' he
        simp only [coe_filter, mem_filter, Set.mem_ofPred_eq] at hc hc'
        have h1 := hc.2.trans hc'.2.symm
        funext j
        by_cases hj : j = i
        · subst hj; exact he
        · have := congrFun h1 j
          simpa only [update_of_ne hj] using this)
  refine this.trans (le_of_eq ?_)
  rw [Fintype.card_piFinset, ← mul_prod_erase univ _ (mem_univ i)]
  simp only [update_self, card_singleton, one_mul]
  congr 1
  refine prod_congr rfl fun j hj => ?_
  rw [update_of_ne (ne_of_mem_erase hj)]

open Classical in
theorem count_fibre₂ {T : Fin 11 → Finset F} (Q : Draw F → Prop) (i j : Fin 11) (hij : i ≠ j) (d : ℕ)
    (h : ∀ c, ((T i ×ˢ T j).filter fun p => Q (update (update c i p.1) j p.2)).card ≤ d) :
    ((Fintype.piFinset T).filter Q).card ≤ d * ∏ k ∈ (univ.erase i).erase j, (T k).card := by
  have := Finset.card_le_mul_card_image_of_maps_to
    (f := fun c : Draw F => update (update c i 0) j 0)
    (s := (Fintype.piFinset T).filter Q)
    (t := Fintype.piFinset (update (update T i {0}) j {0})) (by
      intro c hc
      rw [mem_filter, Fintype.mem_piFinset] at hc
      rw [Fintype.mem_piFinset]
      intro k
      by_cases hj : k = j
      · subst hj; simp
      · simp only [update_of_ne hj]
        by_cases hi : k = i
        · subst hi; simp
        · simp only [update_of_ne hi]; exact hc.1 k) d (by
      intro b _
      refine le_trans (card_le_card_of_injOn (fun c => (c i, c j)) ?_ ?_) (h b)
      · intro c hc
        simp only [coe_filter, mem_filter, Fintype.mem_piFinset, Set.mem_ofPred_eq] at hc
        simp only [coe_filter, Set.mem_ofPred_eq, mem_product]
        refine ⟨⟨hc.1.1 i, hc.1.1 j⟩, ?_⟩
        have e : update (update b i (c i)) j (c j) = c := by
          rw [← hc.2]
          funext k
          by_cases hj : k = j
          · subst hj; simp
          · by_cases hi : k = i
            · subst hi; simp [hj]
            · simp [hj, hi]
        rw [e]
        exact hc.1.2
      · intro c hc c' hc' he
        simp only [coe_filter, mem_filter, Set.mem_ofPred_eq] at hc hc'
        have h1 := hc.2.trans hc'.2.symm
        have h2 := Prod.mk.inj he
        funext k
        by_cases hj : k = j
        · subst hj; exact h2.2
        · by_cases hi : k = i
          · subst hi; exact h2.1
          · have := congrFun h1 k
            simpa only [update_of_ne hj, update_of_ne hi] using this)
  refine this.trans (le_of_eq ?_)
  rw [Fintype.card_piFinset, ← mul_prod_erase univ _ (mem_univ i),
    ← mul_prod_erase (univ.erase i) _ (mem_erase.2 ⟨hij.symm, mem_univ j⟩)]
  simp only [update_self, card_singleton, update_of_ne hij, one_mul]
  congr 1
  refine prod_congr rfl fun k hk => ?_
  rw [update_of_ne (ne_of_mem_erase hk), update_of_ne (ne_of_mem_erase (mem_of_mem_erase hk))]

section
variable (A B : Finset F)

open Classical in
/-- A round with one challenge other than the last. -/
theorem count_one (Q : Draw F → Prop) (i : Fin 11) (hi : i ≠ 10) (d : ℕ)
    (h : ∀ c, (A.filter fun a => Q (update c i a)).card ≤ d) :
    ((draws A B).filter Q).card ≤ d * (A.card ^ 9 * B.card) := by
  refine (count_fibre Q i d (by simpa only [if_neg hi] using h)).trans
    (Nat.mul_le_mul_left _ (le_of_eq ?_))
  rw [← mul_prod_erase (univ.erase i) _ (mem_erase.2 ⟨hi.symm, mem_univ 10⟩)]
  rw [if_pos rfl, mul_comm]
  congr 1
  rw [prod_congr rfl fun k hk => by rw [if_neg (ne_of_mem_erase hk)], prod_const,
    card_erase_of_mem (mem_erase.2 ⟨hi.symm, mem_univ 10⟩), card_erase_of_mem (mem_univ i)]
  simp

open Classical in
/-- The last round. -/
theorem count_last (Q : Draw F → Prop) (d : ℕ)
    (h : ∀ c, (B.filter fun a => Q (update c 10 a)).card ≤ d) :
    ((draws A B).filter Q).card ≤ d * A.card ^ 10 := by
  refine (count_fibre Q 10 d (by simpa using h)).trans (Nat.mul_le_mul_left _ (le_of_eq ?_))
  rw [prod_congr rfl fun k hk => by rw [if_neg (ne_of_mem_erase hk)], prod_const,
    card_erase_of_mem (mem_univ _)]
  simp

open Classical in
/-- A round with two challenges. -/
theorem count_two (Q : Draw F → Prop) (i j : Fin 11) (hi : i ≠ 10) (hj : j ≠ 10) (hij : i ≠ j) (d : ℕ)
    (h : ∀ c, ((A ×ˢ A).filter fun p => Q (update (update c i p.1) j p.2)).card ≤ d * A.card) :
    ((draws A B).filter Q).card ≤ d * (A.card ^ 9 * B.card) := by
  refine (count_fibre₂ Q i j hij (d * A.card) (by simpa only [if_neg hi, if_neg hj] using h)).trans
    (le_of_eq ?_)
  rw [← mul_prod_erase ((univ.erase i).erase j) _
    (mem_erase.2 ⟨hj.symm, mem_erase.2 ⟨hi.symm, mem_univ 10⟩⟩)]
  rw [if_pos rfl, prod_congr rfl fun k hk => by rw [if_neg (ne_of_mem_erase hk)], prod_const,
    card_erase_of_mem (mem_erase.2 ⟨hj.symm, mem_erase.2 ⟨hi.symm, mem_univ 10⟩⟩),
    card_erase_of_mem (mem_erase.2 ⟨hij.symm, mem_univ j⟩), card_erase_of_mem (mem_univ i)]
  simp only [card_univ, Fintype.card_fin]
  ring
end

/-! ### Polynomial identities in one round -/

theorem roots_le' {k : ℕ} (g : ℕ → F) {j0 : ℕ} (hj : j0 < k) (h0 : g j0 ≠ 0) (A : Finset F) :
    (A.filter fun z => ∑ j ∈ range k, g j * z ^ j = 0).card ≤ k - 1 := by
  set P : Polynomial F := ∑ i ∈ range k, Polynomial.monomial i (g i) with hP
  have hc : P.coeff j0 = g j0 := by
    rw [hP, Polynomial.finsetSum_coeff]
    simp only [Polynomial.coeff_monomial]
    rw [sum_ite_eq' (range k) j0, if_pos (mem_range.2 hj)]
  have hP0 : P ≠ 0 := fun h => h0 (by rw [← hc, h, Polynomial.coeff_zero])
  have hd : P.natDegree ≤ k - 1 := by
    rw [hP]
    refine Polynomial.natDegree_sum_le_of_forall_le _ _ fun i hi => ?_
    exact (Polynomial.natDegree_monomial_le _).trans (by have := mem_range.1 hi; omega)
  refine le_trans (card_le_card fun z hz => ?_)
    ((Multiset.toFinset_card_le P.roots).trans ((Polynomial.card_roots' P).trans hd))
  rw [Multiset.mem_toFinset, Polynomial.mem_roots hP0, Polynomial.IsRoot, hP,
    Polynomial.eval_finsetSum, ← (mem_filter.1 hz).2]
  exact sum_congr rfl fun i _ => by simp

/-- Two polynomials that differ below `4 n` agree at fewer than `4 n` points. -/
theorem agree_le {n : ℕ} {p q : ℕ → F} (h : ∃ k < 4 * n, p k ≠ q k) (A : Finset F) :
    (A.filter fun x => polyAt n p x = polyAt n q x).card ≤ 4 * n - 1 := by
  obtain ⟨k, hk, hne⟩ := h
  refine le_trans (le_of_eq (congrArg Finset.card (filter_congr fun z _ => ?_)))
    (roots_le' (fun k => p k - q k) hk (sub_ne_zero.2 hne) A)
  rw [← sub_eq_zero, polyAt, polyAt, ← sum_sub_distrib]
  simp only [sub_mul]

/-- Two different lists of the same length have the same combination for fewer multipliers than their
length. -/
theorem descending_le {k : ℕ} {l m : List F} (hl : l.length = k) (hm : m.length = k) (h : l ≠ m)
    (B : Finset F) : (B.filter fun b => descending b l = descending b m).card ≤ k - 1 := by
  obtain ⟨i, hi, hne⟩ : ∃ i < k, l.getD i 0 ≠ m.getD i 0 := by
    by_contra hc
    push Not at hc
    apply h
    apply List.ext_getElem (hl.trans hm.symm)
    intro i h1 h2
    have := hc i (hl ▸ h1)
    rwa [List.getD_eq_getElem?_getD, List.getElem?_eq_getElem h1, List.getD_eq_getElem?_getD,
      List.getElem?_eq_getElem h2] at this
  refine le_trans (le_of_eq (congrArg Finset.card (filter_congr fun z _ => ?_)))
    (roots_le' (fun j => l.getD (k - 1 - j) 0 - m.getD (k - 1 - j) 0) (j0 := k - 1 - i)
      (show k - 1 - i < k by omega)
      (by rw [show k - 1 - (k - 1 - i) = i by omega]; exact sub_ne_zero.2 hne) B)
  rw [← sub_eq_zero, descending, descending, hl, hm, ← sum_sub_distrib, ← sum_range_reflect]
  refine Eq.congr_left (sum_congr rfl fun j hj => ?_)
  have := mem_range.1 hj
  rw [show k - 1 - (k - 1 - j) = j by omega]
  ring

/-! ### Quotients -/

/-- The polynomial with these coefficients. -/
noncomputable def asPoly (n : ℕ) (p : ℕ → F) : Polynomial F :=
  ∑ k ∈ range (4 * n), Polynomial.monomial k (p k)

theorem asPoly_eval (n : ℕ) (p : ℕ → F) (x : F) : (asPoly n p).eval x = polyAt n p x := by
  rw [asPoly, Polynomial.eval_finsetSum, polyAt]
  exact sum_congr rfl fun i _ => by simp

theorem asPoly_degree (n : ℕ) (p : ℕ → F) : (asPoly n p).natDegree ≤ 4 * n - 1 := by
  refine Polynomial.natDegree_sum_le_of_forall_le _ _ fun i hi => ?_
  exact (Polynomial.natDegree_monomial_le _).trans (by have := mem_range.1 hi; omega)

open Polynomial in
/-- Quotients that do not divide: if at some point `ξ` the combination of the wrong answers is not
zero, then few `u` make a polynomial `f` agree with the combination of the quotients. -/
theorem quotient_le {n k : ℕ} (f : ℕ → F) (P : ℕ → ℕ → F) (pt ans c : ℕ → F) (ξ : F)
    (h : ∑ i ∈ (range k).filter (fun i => pt i = ξ), c i * (polyAt n (P i) (pt i) - ans i) ≠ 0)
    (A : Finset F) :
    (A.filter fun u => (∀ i < k, u ≠ pt i) ∧
      polyAt n f u = ∑ i ∈ range k, c i * ((polyAt n (P i) u - ans i) / (u - pt i))).card ≤
        4 * n - 1 + k := by
  set S := (range k).image pt with hS
  set δ : ℕ → F := fun i => polyAt n (P i) (pt i) - ans i with hδ
  set ρ : F → F := fun η => ∑ i ∈ (range k).filter (fun i => pt i = η), c i * δ i with hρ
  set q : ℕ → Polynomial F := fun i => asPoly n (P i) /ₘ (X - C (pt i)) with hq
  have hq1 : ∀ i u, polyAt n (P i) u - ans i = (u - pt i) * (q i).eval u + δ i := by
    intro i u
    have := congrArg (Polynomial.eval u) (modByMonic_add_div (asPoly n (P i)) (X - C (pt i)))
    rw [modByMonic_X_sub_C_eq_C_eval, eval_add, eval_mul, eval_C, asPoly_eval, asPoly_eval] at this
    simp only [eval_sub, eval_X, eval_C] at this
    rw [← this, hδ]
    ring
  have hqd : ∀ i, (q i).natDegree ≤ 4 * n - 1 := fun i => by
    rw [hq]
    rw [natDegree_divByMonic _ (monic_X_sub_C _)]
    exact (Nat.sub_le _ _).trans (asPoly_degree n (P i))
  set g : Polynomial F := asPoly n f - ∑ i ∈ range k, C (c i) * q i with hg
  set R : Polynomial F := g * ∏ η ∈ S, (X - C η) -
    ∑ η ∈ S, C (ρ η) * ∏ θ ∈ S.erase η, (X - C θ) with hR
  have hξ : ξ ∈ S := by
    by_contra hn
    apply h
    rw [filter_false_of_mem, sum_empty]
    intro i hi he
    exact hn (mem_image.2 ⟨i, hi, he⟩)
  have hR0 : R ≠ 0 := by
    intro h0
    have := congrArg (Polynomial.eval ξ) h0
    rw [hR, eval_sub, eval_mul, eval_prod, prod_eq_zero hξ (by simp), mul_zero, zero_sub,
      eval_finsetSum, sum_eq_single ξ, eval_mul, eval_C, eval_prod, eval_zero, neg_eq_zero,
      mul_eq_zero] at this
    · rcases this with h1 | h1
      · exact h h1
      · rw [prod_eq_zero_iff] at h1
        obtain ⟨θ, h2, h3⟩ := h1
        simp only [eval_sub, eval_X, eval_C, sub_eq_zero] at h3
        exact ne_of_mem_erase h2 h3.symm
    · intro η _ hne
      rw [eval_mul, eval_prod, prod_eq_zero (mem_erase.2 ⟨hne.symm, hξ⟩) (by simp), mul_zero]
    · intro hn
      exact absurd hξ hn
  have hcard : S.card ≤ k := card_image_le.trans (by simp)
  have hprod : ∀ T : Finset F, (∏ η ∈ T, (X - C η)).natDegree ≤ T.card := by
    intro T
    refine (natDegree_prod_le _ _).trans ?_
    refine (sum_le_card_nsmul _ _ 1 fun η _ => ?_).trans (by simp)
    exact natDegree_X_sub_C_le η
  have hgd : g.natDegree ≤ 4 * n - 1 := by
    refine (natDegree_sub_le _ _).trans (max_le (asPoly_degree n f) ?_)
    refine natDegree_sum_le_of_forall_le _ _ fun i _ => ?_
    exact (natDegree_C_mul_le _ _).trans (hqd i)
  have hRd : R.natDegree ≤ 4 * n - 1 + k := by
    refine (natDegree_sub_le _ _).trans (max_le ?_ ?_)
    · exact natDegree_mul_le.trans (add_le_add hgd ((hprod S).trans hcard))
    · refine natDegree_sum_le_of_forall_le _ _ fun η _ => ?_
      refine (natDegree_C_mul_le _ _).trans ((hprod _).trans ?_)
      exact (card_le_card (erase_subset _ _)).trans (hcard.trans (by omega))
  refine le_trans (card_le_card fun u hu => ?_)
    ((Multiset.toFinset_card_le R.roots).trans ((card_roots' R).trans hRd))
  obtain ⟨hu, hav, heq⟩ := mem_filter.1 hu
  have hne : ∀ η ∈ S, u - η ≠ 0 := by
    intro η hη
    obtain ⟨i, hi, rfl⟩ := mem_image.1 hη
    exact sub_ne_zero.2 (hav i (mem_range.1 hi))
  have hgu : g.eval u = ∑ η ∈ S, ρ η / (u - η) := by
    rw [hg, eval_sub, asPoly_eval, heq, eval_finsetSum, ← sum_sub_distrib]
    have e : ∀ i ∈ range k, c i * ((polyAt n (P i) u - ans i) / (u - pt i)) - Polynomial.eval u (C (c i) * q i) =
        c i * δ i / (u - pt i) := by
      intro i hi
      rw [hq1, eval_mul, eval_C, add_div, mul_div_cancel_left₀ _
        (sub_ne_zero.2 (hav i (mem_range.1 hi)))]
      ring
    rw [sum_congr rfl e, ← sum_fiberwise_of_maps_to (s := range k) (t := S) (g := pt)
      (fun i hi => mem_image_of_mem _ hi)]
    refine sum_congr rfl fun η _ => ?_
    rw [hρ, sum_div]
    refine sum_congr rfl fun i hi => ?_
    rw [(mem_filter.1 hi).2]
  rw [Multiset.mem_toFinset, mem_roots hR0, IsRoot, hR, eval_sub, eval_mul, hgu, eval_finsetSum,
    eval_prod, sum_mul, sub_eq_zero]
  refine sum_congr rfl fun η hη => ?_
  rw [eval_mul, eval_C, eval_prod, ← mul_prod_erase S _ hη]
  simp only [eval_sub, eval_X, eval_C]
  rw [← mul_assoc, div_mul_cancel₀ _ (hne η hη)]

end Ragu.Spec
