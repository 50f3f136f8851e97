import Verif.Lemmas.Sparse
import Verif.Lemmas.Util
import Mathlib.Algebra.Order.BigOperators.Group.Finset
import Mathlib.Algebra.BigOperators.Intervals

set_option linter.unusedSectionVars false

namespace Ragu.Sparse
open Finset Spec

variable {F : Type*} [Field F] [DecidableEq F]

theorem wf_concat {F : Type*} {lo N s : ℕ} {d : List F} {p : Poly F}
    (h : WellFormedFrom lo N (p ++ [(s, d)])) (hlo : lo ≤ s ∨ p ≠ []) :
    WellFormedFrom lo s p ∧ d ≠ [] ∧ s + d.length ≤ N := by
  induction p generalizing lo with
  | nil =>
    obtain ⟨h1, h2, h3, h4⟩ := h
    exact ⟨trivial, h2, h3⟩
  | cons b p ih =>
    obtain ⟨s', d'⟩ := b
    obtain ⟨h1, h2, h3, h4⟩ := h
    rcases p with _ | ⟨b2, p⟩
    · obtain ⟨g1, g2, g3, g4⟩ := h4
      exact ⟨⟨h1, h2, g1, trivial⟩, g2, g3⟩
    · have := ih h4 (Or.inr (by simp))
      refine ⟨⟨h1, h2, ?_, this.1⟩, this.2.1, this.2.2⟩
      obtain ⟨s2, d2⟩ := b2
      have t := this.1
      obtain ⟨t1, t2, t3, t4⟩ := t
      omega

theorem wf_concat_lo {F : Type*} {lo N s : ℕ} {d : List F} {p : Poly F}
    (h : WellFormedFrom lo N (p ++ [(s, d)])) : lo ≤ s := by
  induction p generalizing lo with
  | nil => exact h.1
  | cons b p ih =>
    obtain ⟨s', d'⟩ := b
    obtain ⟨h1, h2, h3, h4⟩ := h
    have := ih h4
    omega

/-! ### evaluation -/

theorem sum_blockCoeff (s : ℕ) (d : List F) (N : ℕ) (h : s + d.length ≤ N) (z : F) :
    ∑ k ∈ range N, blockCoeff (s, d) k * z ^ k = z ^ s * polyVal d z := by
  induction d generalizing s with
  | nil => simp [blockCoeff, polyVal]
  | cons c d ih =>
    simp only [List.length_cons] at h
    rw [polyVal_cons]
    simp only [blockCoeff_cons, add_mul, sum_add_distrib]
    rw [ih (s + 1) (by omega)]
    have : ∑ k ∈ range N, (if k = s then c else 0) * z ^ k = c * z ^ s := by
      rw [sum_eq_single s]
      · simp
      · intro b _ hb; simp [hb]
      · intro hb; simp at hb; omega
    rw [this]; ring

theorem evalCoeffs_add (N : ℕ) (c d : ℕ → F) (z : F) :
    evalCoeffs N (fun k => c k + d k) z = evalCoeffs N c z + evalCoeffs N d z := by
  simp [evalCoeffs, add_mul, sum_add_distrib]

theorem foldr_horner (d : List F) (z r : F) :
    d.reverse.foldl (fun r c => r * z + c) r = r * z ^ d.length + polyVal d z := by
  induction d generalizing r with
  | nil => simp [polyVal]
  | cons c d ih =>
    rw [List.reverse_cons, List.foldl_append, ih, polyVal_cons]
    simp only [List.foldl_cons, List.foldl_nil, List.length_cons, pow_succ]
    ring

theorem evalLoop_spec (z : F) (N : ℕ) (q : Poly F) (r : F) (ps : ℕ) (hps : ps ≤ N)
    (h : WellFormedFrom 0 ps q.reverse) :
    (evalLoop z r ps q).1 * z ^ (evalLoop z r ps q).2 =
      r * z ^ ps + evalCoeffs N (coeff q) z := by
  induction q generalizing r ps with
  | nil => simp [evalLoop, evalCoeffs]
  | cons b q ih =>
    obtain ⟨s, d⟩ := b
    rw [List.reverse_cons] at h
    obtain ⟨h1, h2, h3⟩ := wf_concat h (Or.inl (Nat.zero_le _))
    simp only [evalLoop]
    have hg : (if ps - (s + d.length) > 0 then r * z ^ (ps - (s + d.length)) else r) =
        r * z ^ (ps - (s + d.length)) := by
      split
      · rfl
      · next hh => rw [show ps - (s + d.length) = 0 by omega]; simp
    rw [hg, ih _ s (by omega) h1, foldr_horner]
    have hc : coeff ((s, d) :: q) = fun k => blockCoeff (s, d) k + coeff q k := by
      funext k; simp
    rw [hc, evalCoeffs_add]
    have hb : evalCoeffs N (fun k => blockCoeff (s, d) k) z = z ^ s * polyVal d z :=
      sum_blockCoeff s d N (by omega) z
    rw [hb]
    conv_rhs => rw [show ps = (ps - (s + d.length)) + d.length + s by omega, pow_add, pow_add]
    ring

theorem eval_spec (N : ℕ) (p : Poly F) (z : F) (h : WellFormed N p) :
    eval N p z = evalCoeffs N (coeff p) z := by
  have := evalLoop_spec z N p.reverse 0 N le_rfl (by rw [List.reverse_reverse]; exact h)
  have hc : coeff p.reverse = coeff p := by funext k; exact coeff_reverse p k
  rw [hc, zero_mul, zero_add] at this
  rw [← this, eval]
  split
  · rfl
  · next hh => rw [show (evalLoop z 0 N p.reverse).2 = 0 by omega]; simp

/-! ### reverse dot product -/

theorem revdotCoeffs_add_left (N : ℕ) (a b c : ℕ → F) :
    revdotCoeffs N (fun k => a k + b k) c = revdotCoeffs N a c + revdotCoeffs N b c := by
  simp [revdotCoeffs, add_mul, sum_add_distrib]

theorem revdotCoeffs_add_right (N : ℕ) (a b c : ℕ → F) :
    revdotCoeffs N c (fun k => a k + b k) = revdotCoeffs N c a + revdotCoeffs N c b := by
  simp [revdotCoeffs, mul_add, sum_add_distrib]

theorem coeff_cons_fun (b : Block F) (p : Poly F) :
    coeff (b :: p) = fun k => blockCoeff b k + coeff p k := by funext k; simp

theorem revdotCoeffs_zero (N : ℕ) (a b : ℕ → F)
    (h : ∀ k < N, a k = 0 ∨ b (N - 1 - k) = 0) : revdotCoeffs N a b = 0 := by
  refine sum_eq_zero fun k hk => ?_
  rcases h k (mem_range.mp hk) with h | h <;> simp [h]

theorem getD_reverse (l : List F) (i : ℕ) (h : i < l.length) :
    l.reverse.getD i 0 = l.getD (l.length - 1 - i) 0 := by
  simp only [List.getD_eq_getElem?_getD]
  rw [List.getElem?_reverse h]

theorem getD_take_drop (l : List F) (o m i : ℕ) (h : i < m) :
    ((l.drop o).take m).getD i 0 = l.getD (o + i) 0 := by
  simp only [List.getD_eq_getElem?_getD]
  rw [List.getElem?_take_of_lt h, List.getElem?_drop]

theorem revdotStep_spec (N : ℕ) (a b : Block F) (ha : a.1 + a.2.length ≤ N)
    (hb : b.1 + b.2.length ≤ N) (ha' : a.2 ≠ []) :
    revdotStep N a b = revdotCoeffs N (blockCoeff a) (blockCoeff b) := by
  obtain ⟨s, d⟩ := a
  obtain ⟨t, e⟩ := b
  simp only at ha hb ha'
  have hd := List.length_pos_of_ne_nil ha'
  unfold revdotStep
  simp only
  have hN : N - 1 + 1 = N := by omega
  rw [hN]
  split
  · next hlt =>
    set lo := max s (N - t - e.length) with hlo
    set hi := min (s + d.length) (N - t) with hhi
    have hs : s ≤ lo := le_max_left _ _
    have hr : N - t - e.length ≤ lo := le_max_right _ _
    have hh : hi ≤ s + d.length := min_le_left _ _
    have hh' : hi ≤ N - t := min_le_right _ _
    set A := (d.drop (lo - s)).take (hi - lo) with hA
    set B := (e.drop (N - 1 - (hi - 1) - t)).take
      (N - 1 - lo - t + 1 - (N - 1 - (hi - 1) - t)) with hB
    have hAl : A.length = hi - lo := by simp [hA]; omega
    have hBl : B.length = hi - lo := by simp [hB]; omega
    rw [foldl_add_eq, zero_add, zipWith_sum_eq A B.reverse (by simp [hAl, hBl]), innerProd, hAl]
    have key : ∀ i ∈ range (hi - lo), coeffAt A i * coeffAt B.reverse i =
        blockCoeff (s, d) (lo + i) * blockCoeff (t, e) (N - 1 - (lo + i)) := by
      intro i hi'
      have hi' := mem_range.mp hi'
      rw [coeffAt, coeffAt, hA, getD_take_drop _ _ _ _ hi', getD_reverse _ _ (by omega), hBl, hB,
        getD_take_drop _ _ _ _ (by omega), blockCoeff_in _ _ (show s ≤ lo + i by omega),
        blockCoeff_in _ _ (show t ≤ N - 1 - (lo + i) by omega)]
      simp only
      rw [show lo - s + i = lo + i - s by omega,
        show N - 1 - (hi - 1) - t + (hi - lo - 1 - i) = N - 1 - (lo + i) - t by omega]
    rw [sum_congr rfl key]
    rw [← sum_Ico_eq_sum_range (fun k => blockCoeff (s, d) k * blockCoeff (t, e) (N - 1 - k)) lo hi]
    rw [revdotCoeffs]
    refine sum_subset ?_ ?_
    · intro k hk
      simp only [mem_Ico, mem_range] at *
      omega
    · intro k hk hk'
      simp only [mem_Ico, mem_range] at *
      rcases Nat.lt_or_ge k s with h1 | h1
      · rw [blockCoeff_lt _ _ h1, zero_mul]
      · rcases Nat.lt_or_ge k (s + d.length) with h2 | h2
        · rcases Nat.lt_or_ge (N - 1 - k) t with h3 | h3
          · rw [blockCoeff_lt (t, e) _ h3, mul_zero]
          · rw [blockCoeff_ge (t, e) _ (show t + e.length ≤ N - 1 - k by omega), mul_zero]
        · rw [blockCoeff_ge _ _ h2, zero_mul]
  · next hlt =>
    rw [revdotCoeffs_zero]
    intro k hk
    rcases Nat.lt_or_ge k s with h1 | h1
    · left; exact blockCoeff_lt _ _ h1
    · rcases Nat.lt_or_ge k (s + d.length) with h2 | h2
      · right
        rcases Nat.lt_or_ge (N - 1 - k) t with h3 | h3
        · exact blockCoeff_lt (t, e) _ h3
        · exact blockCoeff_ge (t, e) _ (show t + e.length ≤ N - 1 - k by omega)
      · left; exact blockCoeff_ge _ _ h2

theorem revdotLoop_spec (N : ℕ) (r : F) (p q : Poly F) (lo : ℕ) (hp : WellFormedFrom lo N p)
    (hi : ℕ) (hiN : hi ≤ N) (hq : WellFormedFrom 0 hi q.reverse) :
    revdotLoop N r p q = r + revdotCoeffs N (coeff p) (coeff q) := by
  induction hm : p.length + q.length using Nat.strong_induction_on generalizing r p q lo hi with
  | _ m ih =>
    match p, q, hp, hq with
    | [], q, _, _ =>
      rw [revdotLoop, revdotCoeffs_zero _ _ _ (fun k _ => Or.inl (by simp)), add_zero]
    | a :: p, [], _, _ =>
      rw [revdotLoop, revdotCoeffs_zero _ _ _ (fun k _ => Or.inr (by simp)), add_zero]
    | (s, d) :: p, (t, e) :: q, hp, hq =>
      rw [revdotLoop]
      obtain ⟨h1, h2, h3, h4⟩ := hp
      have hq0 := hq
      rw [List.reverse_cons] at hq
      obtain ⟨q1, q2, q3⟩ := wf_concat hq (Or.inl (Nat.zero_le _))
      simp only [List.length_cons] at hm
      simp only
      have hd := List.length_pos_of_ne_nil h2
      rw [revdotStep_spec N (s, d) (t, e) h3 (by simp only; omega) h2]
      rw [show N - 1 + 1 = N by omega]
      have hqc : ∀ k, t ≤ k → coeff q k = 0 := by
        intro k hk
        rw [← coeff_reverse]
        exact coeff_ge_of_wf q1 hk
      have zero1 : s + d.length ≤ N - t →
          revdotCoeffs N (blockCoeff (s, d)) (coeff q) = 0 := by
        intro hle
        refine revdotCoeffs_zero _ _ _ fun k hk => ?_
        rcases Nat.lt_or_ge k (s + d.length) with h | h
        · right; exact hqc _ (by omega)
        · left; exact blockCoeff_ge _ _ h
      have zero2 : N - t ≤ s + d.length →
          revdotCoeffs N (coeff p) (blockCoeff (t, e)) = 0 := by
        intro hle
        refine revdotCoeffs_zero _ _ _ fun k hk => ?_
        rcases Nat.lt_or_ge k (s + d.length) with h | h
        · left; exact coeff_lt_of_wf h4 h
        · right; exact blockCoeff_lt (t, e) _ (show N - 1 - k < t by omega)
      split
      · next hle =>
        split
        · next hge =>
          rw [ih (p.length + q.length) (by omega) _ p q _ h4 t (by omega) q1 rfl]
          rw [coeff_cons_fun (s, d) p, coeff_cons_fun (t, e) q, revdotCoeffs_add_left,
            revdotCoeffs_add_right, revdotCoeffs_add_right, zero1 hle, zero2 hge]
          ring
        · rw [ih (p.length + (q.length + 1)) (by omega) _ p ((t, e) :: q) _ h4 hi hiN hq0 rfl]
          rw [coeff_cons_fun (s, d) p, coeff_cons_fun (t, e) q, revdotCoeffs_add_left,
            revdotCoeffs_add_right, revdotCoeffs_add_right, zero1 hle]
          ring
      · next hgt =>
        rw [ih (p.length + 1 + q.length) (by omega) _ ((s, d) :: p) q lo ⟨h1, h2, h3, h4⟩ t
          (by omega) q1 rfl]
        rw [coeff_cons_fun (s, d) p, coeff_cons_fun (t, e) q, revdotCoeffs_add_left,
          revdotCoeffs_add_left, revdotCoeffs_add_right, revdotCoeffs_add_right,
          zero2 (by omega)]
        ring

theorem revdot_spec (N : ℕ) (p q : Poly F) (hp : WellFormed N p) (hq : WellFormed N q) :
    revdot N p q = revdotCoeffs N (coeff p) (coeff q) := by
  have hc : coeff q.reverse = coeff q := by funext k; exact coeff_reverse q k
  rw [revdot, revdotLoop_spec N 0 p q.reverse 0 hp N le_rfl
    (by rw [List.reverse_reverse]; exact hq), zero_add, hc]

/-! ### fold -/

theorem fold_spec (N : ℕ) (ps : List (Poly F)) (s : F) (h : ∀ p ∈ ps, WellFormed N p) :
    ∃ r, fold N ps s = some r ∧ WellFormed N r ∧
      ∀ k, coeff r k = polyVal (ps.reverse.map fun p => coeff p k) s := by
  unfold fold
  have gen : ∀ (acc : Poly F), WellFormed N acc →
      ∃ r, ps.foldl (fun acc p => acc.bind fun a => addAssign N (scale a s) p) (some acc) = some r ∧
        WellFormed N r ∧
        ∀ k, coeff r k = coeff acc k * s ^ ps.length +
          polyVal (ps.reverse.map fun p => coeff p k) s := by
    induction ps with
    | nil => intro acc hacc; exact ⟨acc, rfl, hacc, fun k => by simp [polyVal]⟩
    | cons p ps ih =>
      intro acc hacc
      obtain ⟨r, h1, h2, h3⟩ := combineAssign_spec N (fun a b => a + b) (by simp) (scale acc s) p
        (scale_wf hacc s) (h p (by simp))
      obtain ⟨r', i1, i2, i3⟩ := ih (fun q hq => h q (by simp [hq])) r h2
      refine ⟨r', ?_, i2, ?_⟩
      · rw [List.foldl_cons, Option.bind_some, addAssign, h1]; exact i1
      · intro k
        rw [i3 k, h3 k, scale_coeff, List.reverse_cons, List.map_append, polyVal_append]
        simp only [List.length_cons, List.length_map, List.length_reverse, List.map_cons,
          List.map_nil, polyVal_cons, polyVal_nil, pow_succ]
        ring
  obtain ⟨r, h1, h2, h3⟩ := gen [] trivial
  exact ⟨r, h1, h2, fun k => by rw [h3 k]; simp⟩

/-! ### coefficient iterator -/

theorem coeff_eq_zero_of_forall (p : Poly F) (k : ℕ)
    (h : ∀ b ∈ p, k < b.1 ∨ b.1 + b.2.length ≤ k) : coeff p k = 0 := by
  induction p with
  | nil => simp
  | cons b p ih =>
    rw [coeff_cons, ih fun c hc => h c (by simp [hc]), add_zero]
    rcases h b (by simp) with h | h
    · exact blockCoeff_lt _ _ h
    · exact blockCoeff_ge _ _ h

theorem wf_mem_lo {F : Type*} {lo N : ℕ} {p : Poly F} (h : WellFormedFrom lo N p) :
    ∀ b ∈ p, lo ≤ b.1 := by
  induction p generalizing lo with
  | nil => intro b hb; simp at hb
  | cons b p ih =>
    obtain ⟨s, d⟩ := b
    obtain ⟨h1, h2, h3, h4⟩ := h
    intro b hb
    rcases List.mem_cons.mp hb with rfl | hb
    · exact h1
    · have := ih h4 b hb; omega

/-- Blocks before index `i` end at or before block `i` starts; later ones start after it ends. -/
theorem wf_split_at {F : Type*} {lo N : ℕ} {p : Poly F} (h : WellFormedFrom lo N p) (i : ℕ) (b : Block F)
    (hb : p[i]? = some b) :
    p = p.take i ++ b :: p.drop (i + 1) ∧ (∀ c ∈ p.take i, c.1 + c.2.length ≤ b.1) ∧
      (∀ c ∈ p.drop (i + 1), b.1 + b.2.length ≤ c.1) := by
  induction p generalizing lo i with
  | nil => simp at hb
  | cons a p ih =>
    obtain ⟨s, d⟩ := a
    obtain ⟨h1, h2, h3, h4⟩ := h
    cases i with
    | zero =>
      simp only [List.getElem?_cons_zero, Option.some.injEq] at hb
      subst hb
      exact ⟨by simp, by simp, by simpa using wf_mem_lo h4⟩
    | succ i =>
      simp only [List.getElem?_cons_succ] at hb
      obtain ⟨i1, i2, i3⟩ := ih h4 i hb
      refine ⟨by simpa using i1, ?_, by simpa using i3⟩
      intro c hc
      simp only [List.take_succ_cons, List.mem_cons] at hc
      rcases hc with rfl | hc
      · have hm : b ∈ p := by
          rw [i1]; simp
        exact wf_mem_lo h4 b hm
      · exact i2 c hc

theorem coeff_at_block {N : ℕ} {p : Poly F} (h : WellFormed N p) (i : ℕ) (b : Block F)
    (hb : p[i]? = some b) (k : ℕ) (hlo : b.1 ≤ k) (hhi : k < b.1 + b.2.length) :
    coeff p k = b.2.getD (k - b.1) 0 := by
  obtain ⟨h1, h2, h3⟩ := wf_split_at h i b hb
  rw [h1, coeff_append, coeff_cons,
    coeff_eq_zero_of_forall (p.take i) k fun c hc => Or.inr (by have := h2 c hc; omega),
    coeff_eq_zero_of_forall (p.drop (i + 1)) k fun c hc => Or.inl (by have := h3 c hc; omega),
    blockCoeff_in _ _ hlo]
  ring

/-- Invariant of the iterator. -/
structure IterInv (N : ℕ) (p : Poly F) (it : CoeffIter F) : Prop where
  blocks : it.blocks = p
  backLe : it.back ≤ N
  front : ∀ i, i < it.frontBlock → ∀ b, p[i]? = some b → b.1 + b.2.length ≤ it.front
  back : ∀ i, it.backBlock ≤ i → ∀ b, p[i]? = some b → it.back ≤ b.1

theorem advanceFront_spec (p : Poly F) (front fb : ℕ)
    (h : ∀ i, i < fb → ∀ b, p[i]? = some b → b.1 + b.2.length ≤ front) :
    (∀ i, i < advanceFront p front fb → ∀ b, p[i]? = some b → b.1 + b.2.length ≤ front) ∧
    (∀ b, p[advanceFront p front fb]? = some b → front < b.1 + b.2.length) := by
  induction hm : p.length - fb generalizing fb with
  | zero =>
    have : ¬ fb < p.length := by omega
    rw [advanceFront, dif_neg this]
    refine ⟨h, fun b hb => ?_⟩
    rw [List.getElem?_eq_none (by omega)] at hb
    simp at hb
  | succ m ih =>
    have hlt : fb < p.length := by omega
    rw [advanceFront, dif_pos hlt]
    split
    · next hgt =>
      refine ⟨h, fun b hb => ?_⟩
      rw [List.getElem?_eq_getElem hlt] at hb
      simp only [Option.some.injEq] at hb
      rw [← hb]; exact hgt
    · next hle =>
      refine ih (fb + 1) (fun i hi b hb => ?_) (by omega)
      rcases Nat.lt_or_ge i fb with h' | h'
      · exact h i h' b hb
      · have : i = fb := by omega
        subst this
        rw [List.getElem?_eq_getElem hlt] at hb
        simp only [Option.some.injEq] at hb
        rw [← hb]; omega

theorem retreatBack_spec (p : Poly F) (back bb : ℕ) (hbb : bb ≤ p.length)
    (h : ∀ i, bb ≤ i → ∀ b, p[i]? = some b → back < b.1) :
    retreatBack p back bb ≤ bb ∧
    (∀ i, retreatBack p back bb ≤ i → ∀ b, p[i]? = some b → back < b.1) ∧
    (∀ j, retreatBack p back bb = j + 1 → ∃ b, p[j]? = some b ∧ b.1 ≤ back) := by
  induction bb with
  | zero => exact ⟨le_rfl, by simpa [retreatBack] using h, by simp [retreatBack]⟩
  | succ bb ih =>
    have hlt : bb < p.length := by omega
    have hb : p[bb]? = some p[bb] := List.getElem?_eq_getElem hlt
    simp only [retreatBack, hb]
    split
    · next hle =>
      refine ⟨le_rfl, h, fun j hj => ?_⟩
      simp only [Nat.add_right_cancel_iff] at hj
      subst hj
      exact ⟨_, hb, hle⟩
    · next hgt =>
      have := ih (by omega) (fun i hi b hb' => by
        rcases Nat.lt_or_ge bb i with h' | h'
        · exact h i h' b hb'
        · have : i = bb := by omega
          subst this
          rw [hb] at hb'
          simp only [Option.some.injEq] at hb'
          rw [← hb']; omega)
      exact ⟨by omega, this.2.1, this.2.2⟩

theorem next_spec {N : ℕ} {p : Poly F} (hp : WellFormed N p) (it : CoeffIter F)
    (hinv : IterInv N p it) :
    (it.front ≥ it.back → it.next = (none, it)) ∧
    (it.front < it.back → ∃ it', it.next = (some (coeff p it.front), it') ∧ IterInv N p it' ∧
      it'.front = it.front + 1 ∧ it'.back = it.back ∧ it'.backBlock = it.backBlock) := by
  refine ⟨fun h => by simp [CoeffIter.next, h], fun h => ?_⟩
  have hb := hinv.blocks
  obtain ⟨a1, a2⟩ := advanceFront_spec p it.front it.frontBlock hinv.front
  unfold CoeffIter.next
  rw [if_neg (by omega), hb]
  simp only
  have hval : (match p[advanceFront p it.front it.frontBlock]? with
      | some b => if it.front ≥ b.1 then b.2.getD (it.front - b.1) 0 else 0
      | none => 0) = coeff p it.front := by
    cases hc : p[advanceFront p it.front it.frontBlock]? with
    | none =>
      simp only
      rw [coeff_eq_zero_of_forall]
      intro b hbm
      obtain ⟨i, hi⟩ := List.getElem?_of_mem hbm
      right
      refine a1 i ?_ b hi
      by_contra hcon
      have h1 : i < p.length := by
        by_contra hcon2
        rw [List.getElem?_eq_none (by omega)] at hi; simp at hi
      have h2 := List.getElem?_eq_none_iff.mp hc
      omega
    | some b =>
      simp only
      have hlt := a2 b hc
      split
      · next hge => exact (coeff_at_block hp _ b hc _ hge hlt).symm
      · next hge =>
        obtain ⟨s1, s2, s3⟩ := wf_split_at hp _ b hc
        rw [s1, coeff_append, coeff_cons, blockCoeff_lt _ _ (by omega)]
        rw [coeff_eq_zero_of_forall (p.drop _) _ fun c hc' => Or.inl (by have := s3 c hc'; omega)]
        rw [coeff_eq_zero_of_forall (p.take _)]
        · ring
        · intro c hc'
          right
          obtain ⟨i, hi⟩ := List.getElem?_of_mem hc'
          rw [List.getElem?_take] at hi
          split at hi
          · next hlt' => exact a1 i hlt' c hi
          · simp at hi
  refine ⟨_, congrArg (fun v => (some v, _)) hval, ⟨rfl, hinv.backLe, fun i hi b hb' => ?_, hinv.back⟩, rfl, rfl, rfl⟩
  have := a1 i hi b hb'
  simp only
  omega

theorem nextBack_spec {N : ℕ} {p : Poly F} (hp : WellFormed N p) (it : CoeffIter F)
    (hinv : IterInv N p it) (hbb : it.backBlock ≤ p.length) :
    (it.front ≥ it.back → it.nextBack = (none, it)) ∧
    (it.front < it.back → ∃ it', it.nextBack = (some (coeff p (it.back - 1)), it') ∧
      IterInv N p it' ∧ it'.front = it.front ∧ it'.back = it.back - 1 ∧
      it'.backBlock ≤ p.length) := by
  refine ⟨fun h => by simp [CoeffIter.nextBack, h], fun h => ?_⟩
  have hb := hinv.blocks
  obtain ⟨a0, a1, a2⟩ := retreatBack_spec p (it.back - 1) it.backBlock hbb
    (fun i hi b hb' => by have := hinv.back i hi b hb'; omega)
  unfold CoeffIter.nextBack
  rw [if_neg (by omega), hb]
  simp only
  have hval : (match retreatBack p (it.back - 1) it.backBlock with
      | 0 => (0 : F)
      | k + 1 =>
          match p[k]? with
          | some b => if it.back - 1 < b.1 + b.2.length then b.2.getD (it.back - 1 - b.1) 0 else 0
          | none => 0) = coeff p (it.back - 1) := by
    cases hr : retreatBack p (it.back - 1) it.backBlock with
    | zero =>
      simp only
      rw [coeff_eq_zero_of_forall]
      intro b hbm
      obtain ⟨i, hi⟩ := List.getElem?_of_mem hbm
      exact Or.inl (a1 i (by omega) b hi)
    | succ k =>
      obtain ⟨b, hk, hle⟩ := a2 k hr
      simp only [hk]
      split
      · next hlt => exact (coeff_at_block hp k b hk _ hle hlt).symm
      · next hge =>
        rw [coeff_eq_zero_of_forall]
        intro c hc
        obtain ⟨i, hi⟩ := List.getElem?_of_mem hc
        rcases Nat.lt_trichotomy i k with h' | h' | h'
        · right
          obtain ⟨s1, s2, s3⟩ := wf_split_at hp k b hk
          have : c ∈ p.take k := by
            refine List.mem_of_getElem? (i := i) ?_
            rw [List.getElem?_take, if_pos h', hi]
          have := s2 c this
          omega
        · subst h'
          rw [hk] at hi
          simp only [Option.some.injEq] at hi
          subst hi
          right; omega
        · left; exact a1 i (by omega) c hi
  refine ⟨_, congrArg (fun v => (some v, _)) hval, ⟨rfl, by have := hinv.backLe; simp only; omega, hinv.front, fun i hi b hb' => ?_⟩,
    rfl, rfl, ?_⟩
  · have := a1 i hi b hb'
    simp only
    omega
  · simp only; omega

end Ragu.Sparse
