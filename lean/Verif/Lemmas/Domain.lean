import Verif.Lemmas.Fft
import Mathlib.RingTheory.Polynomial.Cyclotomic.Basic
import Mathlib.Tactic.FieldSimp

set_option linter.unusedSectionVars false

namespace Ragu.Fft
open Finset Polynomial

variable {F : Type} [Field F]

/-- What a domain of size `2^k` must satisfy. -/
structure Domain.Good (d : Domain F) (k : ℕ) : Prop where
  log : d.log2n = k
  size : d.n = 2 ^ k
  prim : IsPrimitiveRoot d.omega (2 ^ k)
  inv : d.omega * d.omegaInv = 1
  ninv : (2 : F) ^ k * d.nInv = 1

/-- What is assumed of the constants of the prime field. -/
structure FieldConsts.Ok (c : FieldConsts F) : Prop where
  prim : IsPrimitiveRoot c.root (2 ^ c.S)
  inv : c.root * c.rootInv = 1
  two : (2 : F) * c.twoInv = 1

theorem Domain.default_good {c : FieldConsts F} (h : c.Ok) : (Domain.default c).Good c.S where
  log := rfl
  size := by simp [Domain.default, Nat.shiftLeft_eq]
  prim := h.prim
  inv := h.inv
  ninv := by
    change (2 : F) ^ c.S * c.twoInv ^ c.S = 1
    rw [← mul_pow, h.two, one_pow]

theorem Domain.halve_good {d : Domain F} {k : ℕ} (h : d.Good (k + 1)) :
    ∃ d', d.halve = some d' ∧ d'.Good k := by
  have hl := h.log
  refine ⟨_, by rw [Domain.halve, if_pos (by omega)], ⟨by simp [hl], by
    simp [hl, Nat.shiftLeft_eq], ?_, ?_, ?_⟩⟩
  · have := h.prim.pow (a := 2) (b := 2 ^ k) (by positivity) (by ring)
    simpa [pow_two] using this
  · change d.omega * d.omega * (d.omegaInv * d.omegaInv) = 1
    linear_combination (d.omega * d.omegaInv + 1) * h.inv
  · change (2 : F) ^ k * (d.nInv + d.nInv) = 1
    rw [← h.ninv]; ring

theorem Domain.halveTimes_good : ∀ (j k : ℕ) (d : Domain F), d.Good (k + j) →
    ∃ d', Domain.halveTimes j d = some d' ∧ d'.Good k
  | 0, k, d, h => ⟨d, rfl, h⟩
  | j + 1, k, d, h => by
    obtain ⟨d1, h1, h2⟩ := Domain.halve_good (k := k + j) h
    obtain ⟨d2, h3, h4⟩ := Domain.halveTimes_good j k d1 h2
    exact ⟨d2, by rw [Domain.halveTimes, h1, Option.bind_some, h3], h4⟩

theorem Domain.new_good {c : FieldConsts F} (h : c.Ok) {k : ℕ} (hk : k ≤ c.S) :
    ∃ d, Domain.new c k = some d ∧ d.Good k := by
  obtain ⟨d, h1, h2⟩ := Domain.halveTimes_good (c.S - k) k (Domain.default c)
    (by rw [show k + (c.S - k) = c.S by omega]; exact Domain.default_good h)
  exact ⟨d, by rw [Domain.new, if_pos hk, h1, Option.bind_some, if_pos h2.log.symm], h2⟩

theorem Domain.Good.half {d : Domain F} {k : ℕ} (h : d.Good k) (hk : 1 ≤ k) :
    d.omega ^ 2 ^ (k - 1) = -1 := by
  refine IsPrimitiveRoot.eq_neg_one_of_two_right (h.prim.pow (by positivity) ?_)
  rw [← pow_succ]; congr 1; omega

theorem Domain.Good.inv_prim {d : Domain F} {k : ℕ} (h : d.Good k) :
    IsPrimitiveRoot d.omegaInv (2 ^ k) := by
  have : d.omegaInv = d.omega⁻¹ := eq_inv_of_mul_eq_one_right h.inv
  rw [this]; exact h.prim.inv

theorem Domain.Good.half_inv {d : Domain F} {k : ℕ} (h : d.Good k) (hk : 1 ≤ k) :
    d.omegaInv ^ 2 ^ (k - 1) = -1 := by
  refine IsPrimitiveRoot.eq_neg_one_of_two_right (h.inv_prim.pow (by positivity) ?_)
  rw [← pow_succ]; congr 1; omega

section
variable {M : Type} [AddCommGroup M] [Module F M]

theorem Domain.Good.fft_tab {d : Domain F} {k : ℕ} (h : d.Good k) (hk : k ≤ 32) (threads : ℕ)
    (ht : 0 < threads) (f : ℕ → M) :
    d.fft threads (tab (2 ^ k) f) = some (tab (2 ^ k) (dft (2 ^ k) d.omega f)) := by
  rw [Domain.fft, h.log, Fft.fft_tab threads ht d.omega k hk h.half]

/-- Orthogonality of the powers of a primitive root. -/
theorem ortho {n : ℕ} {w w' : F} (hw : IsPrimitiveRoot w n) (hi : w * w' = 1) {i l : ℕ} (h1 : i < n)
    (h2 : l < n) : ∑ j ∈ range n, w' ^ (i * j) * w ^ (j * l) = if l = i then (n : F) else 0 := by
  have e : ∀ j, w' ^ (i * j) * w ^ (j * l) = (w' ^ i * w ^ l) ^ j := fun j => by
    rw [mul_pow, ← pow_mul, ← pow_mul, mul_comm j l]
  simp only [e]
  have hw' : w' ^ i * w ^ i = 1 := by rw [← mul_pow, mul_comm, hi, one_pow]
  split
  · rename_i hli
    subst hli
    rw [hw']; simp
  · rename_i hli
    have hz : w' ^ i * w ^ l ≠ 1 := by
      intro hz
      apply hli
      refine hw.pow_inj h2 h1 ?_
      have hne : w' ^ i ≠ 0 := by
        intro h0; rw [h0, zero_mul] at hw'; exact zero_ne_one hw'
      exact mul_left_cancel₀ hne (hz.trans hw'.symm)
    have hn : (w' ^ i * w ^ l) ^ n = 1 := by
      rw [mul_pow, ← pow_mul, ← pow_mul, mul_comm i n, mul_comm l n, pow_mul, pow_mul, hw.pow_eq_one]
      have : w' ^ n = 1 := by
        have := congrArg (· ^ n) hi
        simp only [mul_pow, hw.pow_eq_one, one_pow, one_mul] at this
        exact this
      rw [this]; simp
    have := geom_sum_mul (w' ^ i * w ^ l) n
    rw [hn, sub_self] at this
    rcases mul_eq_zero.1 this with h | h
    · exact h
    · exact absurd (sub_eq_zero.1 h) hz

theorem dft_inv {n : ℕ} {w w' : F} (hw : IsPrimitiveRoot w n) (hi : w * w' = 1) (f : ℕ → M) {i : ℕ}
    (h : i < n) : dft n w' (dft n w f) i = (n : F) • f i := by
  simp only [dft, smul_sum, smul_smul]
  rw [sum_comm]
  simp only [← sum_smul]
  rw [sum_congr rfl fun l hl => by rw [ortho hw hi h (mem_range.1 hl)]]
  simp only [ite_smul, zero_smul]
  rw [sum_ite_eq' (range n) i, if_pos (mem_range.2 h)]

theorem Domain.Good.ifft_tab {d : Domain F} {k : ℕ} (h : d.Good k) (hk : k ≤ 32) (threads : ℕ)
    (ht : 0 < threads) (f : ℕ → M) :
    d.ifft threads (tab (2 ^ k) (dft (2 ^ k) d.omega f)) = some (tab (2 ^ k) f) := by
  rw [Domain.ifft, h.log, Fft.fft_tab threads ht d.omegaInv k hk h.half_inv, Option.map_some]
  congr 1
  rw [tab, List.map_map]
  refine List.map_congr_left fun i hi => ?_
  simp only [Function.comp_apply]
  rw [dft_inv h.prim h.inv f (List.mem_range.1 hi), smul_smul]
  have := h.ninv
  push_cast
  rw [mul_comm, this, one_smul]

end

/-! ### The vanishing polynomial and the Lagrange basis -/

theorem prod_roots {n : ℕ} (hn : 0 < n) {w : F} (hw : IsPrimitiveRoot w n) :
    ∏ j ∈ range n, (X - C (w ^ j)) = (X ^ n - 1 : F[X]) := by
  classical
  have : NeZero n := ⟨by omega⟩
  rw [X_pow_sub_one_eq_prod hn hw]
  have e : nthRootsFinset n (1 : F) = (range n).image (w ^ ·) := by
    ext z
    rw [mem_nthRootsFinset hn, mem_image]
    constructor
    · intro hz
      obtain ⟨i, hi, rfl⟩ := hw.eq_pow_of_pow_eq_one hz
      exact ⟨i, mem_range.2 hi, rfl⟩
    · rintro ⟨i, -, rfl⟩
      rw [← pow_mul, mul_comm, pow_mul, hw.pow_eq_one, one_pow]
  rw [e, prod_image]
  intro i hi j hj h
  exact hw.pow_inj (by simpa using hi) (by simpa using hj) h

theorem prod_others {n : ℕ} (hn : 0 < n) {w : F} (hw : IsPrimitiveRoot w n) {i : ℕ} (hi : i < n) :
    ∏ j ∈ (range n).erase i, (X - C (w ^ j)) =
      (∑ k ∈ range n, X ^ k * C (w ^ i) ^ (n - 1 - k) : F[X]) := by
  have h1 := mul_prod_erase (range n) (fun j => (X - C (w ^ j) : F[X])) (mem_range.2 hi)
  rw [prod_roots hn hw] at h1
  have h2 := Commute.geom_sum₂_mul (Commute.all (X : F[X]) (C (w ^ i))) n
  have h3 : (C (w ^ i) : F[X]) ^ n = 1 := by
    rw [← C_pow, ← pow_mul, mul_comm, pow_mul, hw.pow_eq_one, one_pow, C_1]
  rw [h3] at h2
  have hne : (X - C (w ^ i) : F[X]) ≠ 0 := X_sub_C_ne_zero _
  apply mul_left_cancel₀ hne
  rw [h1, ← h2, mul_comm]

theorem prod_others_self {n : ℕ} (hn : 0 < n) {w : F} (hw : IsPrimitiveRoot w n) {i : ℕ}
    (hi : i < n) : ∏ j ∈ (range n).erase i, (w ^ i - w ^ j) = n * (w ^ i) ^ (n - 1) := by
  have := congrArg (eval (w ^ i)) (prod_others hn hw hi)
  rw [eval_prod] at this
  simp only [eval_sub, eval_X, eval_C, eval_finsetSum, eval_mul, eval_pow] at this
  rw [this]
  rw [sum_congr rfl fun k hk => by
    rw [← pow_add, show k + (n - 1 - k) = n - 1 by have := mem_range.1 hk; omega]]
  simp

theorem prod_others_eval {n : ℕ} (hn : 0 < n) {w : F} (hw : IsPrimitiveRoot w n) {i : ℕ}
    (hi : i < n) (x : F) : (x - w ^ i) * ∏ j ∈ (range n).erase i, (x - w ^ j) = x ^ n - 1 := by
  rw [mul_prod_erase (range n) (fun j => x - w ^ j) (mem_range.2 hi)]
  have := congrArg (eval x) (prod_roots hn hw)
  rw [eval_prod] at this
  simpa using this

theorem denominators_eq (omega x : F) : ∀ (cnt : ℕ) (acc : F),
    Domain.denominators omega x cnt acc = tab cnt fun i => x - acc * omega ^ i
  | 0, _ => rfl
  | cnt + 1, acc => by
    rw [Domain.denominators, denominators_eq omega x cnt, tab_succ]
    simp only [pow_zero, mul_one]
    congr 1
    exact tab_congr fun i _ => by ring

theorem numerators_eq (omega : F) : ∀ (cnt : ℕ) (num : F) (f : ℕ → F),
    Domain.numerators omega num (tab cnt f) = tab cnt fun i => num * omega ^ i * f i
  | 0, _, _ => rfl
  | cnt + 1, num, f => by
    rw [tab_succ, Domain.numerators, numerators_eq omega cnt, tab_succ]
    simp only [pow_zero, mul_one]
    congr 1
    exact tab_congr fun i _ => by ring

theorem Domain.Good.lagrange {d : Domain F} {k : ℕ} (h : d.Good k) {x : F} (hx : x ^ d.n ≠ 1)
    {i : ℕ} (hi : i < d.n) :
    (x ^ d.n - 1) * d.nInv * d.omega ^ i * (x - d.omega ^ i)⁻¹ =
      ∏ j ∈ (range d.n).erase i, (x - d.omega ^ j) / (d.omega ^ i - d.omega ^ j) := by
  have hp := h.prim
  rw [← h.size] at hp
  have hn : 0 < d.n := by rw [h.size]; positivity
  have hxi : x - d.omega ^ i ≠ 0 := by
    intro h0
    apply hx
    rw [sub_eq_zero.1 h0, ← pow_mul, mul_comm, pow_mul, hp.pow_eq_one, one_pow]
  rw [prod_div_distrib, prod_others_self hn hp hi, ← prod_others_eval hn hp hi x]
  have hnn : (d.n : F) * d.nInv = 1 := by rw [h.size]; push_cast; exact h.ninv
  have hn0 : (d.n : F) ≠ 0 := fun h0 => by rw [h0, zero_mul] at hnn; exact zero_ne_one hnn
  have hw1 : (d.omega ^ i) ^ (d.n - 1) * d.omega ^ i = 1 := by
    rw [← pow_succ, show d.n - 1 + 1 = d.n by omega, ← pow_mul, mul_comm, pow_mul, hp.pow_eq_one,
      one_pow]
  have hw0 : (d.omega ^ i) ^ (d.n - 1) ≠ 0 := fun h0 => by
    rw [h0, zero_mul] at hw1; exact zero_ne_one hw1
  have e1 : d.nInv = (d.n : F)⁻¹ := eq_inv_of_mul_eq_one_right hnn
  have e2 : d.omega ^ i = ((d.omega ^ i) ^ (d.n - 1))⁻¹ := eq_inv_of_mul_eq_one_right hw1
  generalize ∏ j ∈ (range d.n).erase i, (x - d.omega ^ j) = P
  generalize hW : (d.omega ^ i) ^ (d.n - 1) = W at *
  rw [e1, div_eq_mul_inv, mul_inv, ← e2]
  field_simp

/-! ### Polynomials from roots -/

/-- The polynomial with the listed coefficients. -/
noncomputable def toPoly (l : List F) : F[X] := ∑ k ∈ range l.length, C (l.getD k 0) * X ^ k

theorem toPoly_coeff (l : List F) (k : ℕ) : (toPoly l).coeff k = l.getD k 0 := by
  rw [toPoly, finsetSum_coeff]
  simp only [coeff_C_mul_X_pow]
  by_cases h : k < l.length
  · rw [sum_eq_single k (fun j _ hj => by rw [if_neg (Ne.symm hj)]) (fun hk => by simp [h] at hk),
      if_pos rfl]
  · rw [List.getD_eq_getElem?_getD, List.getElem?_eq_none (by omega)]
    refine sum_eq_zero fun j hj => ?_
    have := mem_range.1 hj
    rw [if_neg (by omega)]

theorem toPoly_eval (l : List F) (n : ℕ) (hn : l.length ≤ n) (x : F) :
    (toPoly l).eval x = ∑ k ∈ range n, l.getD k 0 * x ^ k := by
  rw [toPoly, eval_finsetSum]
  simp only [eval_mul, eval_C, eval_pow, eval_X]
  refine sum_subset (fun j hj => mem_range.2 (lt_of_lt_of_le (mem_range.1 hj) hn)) fun j _ hj => ?_
  rw [mem_range, not_lt] at hj
  rw [List.getD_eq_getElem?_getD, List.getElem?_eq_none hj]
  simp

theorem toPoly_natDegree (l : List F) : (toPoly l).natDegree ≤ l.length - 1 := by
  rw [natDegree_le_iff_coeff_eq_zero]
  intro k hk
  rw [toPoly_coeff, List.getD_eq_getElem?_getD, List.getElem?_eq_none (by omega)]
  rfl

theorem pad_tab (p : List F) (n : ℕ) (h : p.length ≤ n) :
    p ++ List.replicate (n - p.length) 0 = tab n fun i => p.getD i 0 := by
  apply List.ext_getElem
  · simp; omega
  · intro i h1 h2
    simp only [tab, List.getElem_map, List.getElem_range, List.getD_eq_getElem?_getD]
    by_cases hi : i < p.length
    · rw [List.getElem_append_left hi, List.getElem?_eq_getElem hi]; rfl
    · rw [List.getElem_append_right (by omega), List.getElem?_eq_none (by omega)]; simp

theorem mulPolys_spec {c : FieldConsts F} (hc : c.Ok) (threads : ℕ) (ht : 0 < threads)
    (maxSize : ℕ) (p q : List F) (hp : p ≠ []) (hq : q ≠ [])
    (hS : Nat.clog 2 ((p.length - 1) + (q.length - 1) + 1) ≤ c.S)
    (h32 : Nat.clog 2 ((p.length - 1) + (q.length - 1) + 1) ≤ 32)
    (hmax : nextPow2 ((p.length - 1) + (q.length - 1) + 1) ≤ maxSize) :
    ∃ r, mulPolys threads c maxSize p q = some r ∧
      r.length = (p.length - 1) + (q.length - 1) + 1 ∧ toPoly r = toPoly p * toPoly q := by
  have hp' : 0 < p.length := List.length_pos_iff.2 hp
  have hq' : 0 < q.length := List.length_pos_iff.2 hq
  generalize hD : (p.length - 1) + (q.length - 1) = D at *
  set k := Nat.clog 2 (D + 1) with hk
  obtain ⟨d, h1, h2⟩ := Domain.new_good hc hS
  have hle : D + 1 ≤ 2 ^ k := Nat.le_pow_clog (by norm_num) _
  have hlog : Nat.log 2 (nextPow2 (D + 1)) = k := by
    rw [nextPow2, Nat.log_pow (by norm_num)]
  have hpn : p.length ≤ 2 ^ k := by omega
  have hqn : q.length ≤ 2 ^ k := by omega
  have hev : ∀ (l : List F), l.length ≤ 2 ^ k → ∀ i,
      dft (2 ^ k) d.omega (fun j => l.getD j 0) i = (toPoly l).eval (d.omega ^ i) := by
    intro l hl i
    rw [dft, toPoly_eval l _ hl]
    refine sum_congr rfl fun j _ => ?_
    rw [smul_eq_mul, pow_mul, mul_comm]
  set R := toPoly p * toPoly q with hR
  have hdeg : R.natDegree ≤ D := by
    refine natDegree_mul_le.trans ?_
    have := toPoly_natDegree p
    have := toPoly_natDegree q
    omega
  have hRe : ∀ i, dft (2 ^ k) d.omega (fun j => R.coeff j) i = R.eval (d.omega ^ i) := by
    intro i
    rw [dft, eval_eq_sum_range' (lt_of_le_of_lt hdeg (by omega : D < 2 ^ k))]
    refine sum_congr rfl fun j _ => ?_
    rw [smul_eq_mul, pow_mul, mul_comm]
  refine ⟨tab (D + 1) fun j => R.coeff j, ?_, by simp, ?_⟩
  · unfold mulPolys
    simp only [hD]
    rw [hlog, h1]
    simp only [Option.bind_eq_bind, Option.bind_some, h2.size]
    rw [if_pos ⟨hpn, hqn, by rw [nextPow2, ← hk] at hmax; exact hmax⟩, pad_tab p _ hpn,
      pad_tab q _ hqn, h2.fft_tab h32 threads ht, h2.fft_tab h32 threads ht]
    simp only [Option.bind_some]
    have hz : List.zipWith (· * ·) (tab (2 ^ k) (dft (2 ^ k) d.omega fun i => p.getD i 0))
        (tab (2 ^ k) (dft (2 ^ k) d.omega fun i => q.getD i 0)) =
        tab (2 ^ k) (dft (2 ^ k) d.omega fun j => R.coeff j) := by
      rw [tab, tab, tab, List.zipWith_map_left, List.zipWith_map_right, List.zipWith_self]
      refine List.map_congr_left fun i _ => ?_
      rw [hev p hpn, hev q hqn, hRe, hR, eval_mul]
    rw [hz, h2.ifft_tab h32 threads ht]
    simp only [Option.bind_some, tab_length]
    rw [if_pos hle]
    congr 1
    obtain ⟨e, he⟩ : ∃ e, 2 ^ k = D + 1 + e := ⟨2 ^ k - (D + 1), by omega⟩
    rw [he, tab_add, List.take_left' (by simp)]
  · ext j
    rw [toPoly_coeff, List.getD_eq_getElem?_getD]
    by_cases hj : j < D + 1
    · rw [tab_getElem? _ _ _ hj]; rfl
    · rw [List.getElem?_eq_none (by simp; omega)]
      exact (coeff_eq_zero_of_natDegree_lt (by omega)).symm

/-- The invariant of the product tree. -/
structure TreeInv (n : ℕ) (P : F[X]) (polys : List (List F)) : Prop where
  ne : ∀ p ∈ polys, p ≠ []
  deg : (polys.map fun p => p.length - 1).sum = n
  prod : (polys.map toPoly).prod = P

theorem pairLoop_spec {c : FieldConsts F} (hc : c.Ok) (threads : ℕ) (ht : 0 < threads) {n : ℕ}
    (hS : Nat.clog 2 (n + 1) ≤ c.S) (h32 : Nat.clog 2 (n + 1) ≤ 32) (P : F[X]) :
    ∀ (cnt i : ℕ) (polys : List (List F)), 2 * (i + cnt) ≤ polys.length →
      TreeInv n P (polys.take i ++ polys.drop (2 * i)) →
      ∃ polys', pairLoop threads c (nextPow2 (n + 1)) cnt i polys = some polys' ∧
        polys'.length = polys.length ∧
        TreeInv n P (polys'.take (i + cnt) ++ polys'.drop (2 * (i + cnt)))
  | 0, i, polys, _, hI => ⟨polys, rfl, rfl, hI⟩
  | cnt + 1, i, polys, hl, hI => by
    have h1 : 2 * i < polys.length := by omega
    have h2 : 2 * i + 1 < polys.length := by omega
    rw [List.drop_eq_getElem_cons h1, List.drop_eq_getElem_cons h2] at hI
    set p := polys[2 * i] with hp
    set q := polys[2 * i + 1] with hq
    have hsum := hI.deg
    simp only [List.map_append, List.map_cons, List.sum_append, List.sum_cons] at hsum
    have hle : (p.length - 1) + (q.length - 1) ≤ n := by omega
    obtain ⟨r, hr1, hr2, hr3⟩ := mulPolys_spec hc threads ht (nextPow2 (n + 1)) p q
      (hI.ne p (by simp)) (hI.ne q (by simp))
      ((Nat.clog_mono_right 2 (by omega)).trans hS) ((Nat.clog_mono_right 2 (by omega)).trans h32)
      (Nat.pow_le_pow_right (by norm_num) (Nat.clog_mono_right 2 (by omega)))
    have hI' : TreeInv n P ((polys.set i r).take (i + 1) ++ (polys.set i r).drop (2 * (i + 1))) := by
      have e1 : (polys.set i r).take (i + 1) = polys.take i ++ [r] := by
        rw [List.take_succ, List.take_set_of_le (Nat.le_refl i)]
        simp [show i < polys.length by omega]
      have e2 : (polys.set i r).drop (2 * (i + 1)) = polys.drop (2 * i + 1 + 1) := by
        rw [List.drop_set_of_lt (by omega)]; congr 1
      rw [e1, e2]
      refine ⟨fun x hx => ?_, ?_, ?_⟩
      · simp only [List.mem_append, List.mem_singleton, or_assoc] at hx
        rcases hx with hx | rfl | hx
        · exact hI.ne x (by simp [hx])
        · intro h0; rw [h0] at hr2; simp at hr2
        · exact hI.ne x (by simp [hx])
      · simp only [List.map_append, List.sum_append, List.map_cons, List.map_nil, List.sum_cons,
          List.sum_nil, hr2]
        omega
      · have := hI.prod
        simp only [List.map_append, List.prod_append, List.map_cons, List.map_nil, List.prod_cons,
          List.prod_nil, hr3] at this ⊢
        rw [← this]; ring
    obtain ⟨polys', h3, h4, h5⟩ := pairLoop_spec hc threads ht hS h32 P cnt (i + 1) (polys.set i r)
      (by simp; omega) hI'
    refine ⟨polys', ?_, by simpa using h4, ?_⟩
    · rw [pairLoop, List.getElem?_eq_getElem h1, List.getElem?_eq_getElem h2]
      simp only [Option.bind_eq_bind, Option.bind_some, ← hp, ← hq, hr1]
      exact h3
    · rw [show i + (cnt + 1) = i + 1 + cnt by omega]; exact h5

theorem rootsRound_spec {c : FieldConsts F} (hc : c.Ok) (threads : ℕ) (ht : 0 < threads) {n : ℕ}
    (hS : Nat.clog 2 (n + 1) ≤ c.S) (h32 : Nat.clog 2 (n + 1) ≤ 32) (P : F[X])
    (polys : List (List F)) (hl : 1 < polys.length) (hI : TreeInv n P polys) :
    ∃ polys', rootsRound threads c (nextPow2 (n + 1)) polys = some polys' ∧
      1 ≤ polys'.length ∧ polys'.length < polys.length ∧ TreeInv n P polys' := by
  obtain ⟨q, h1, h2, h3⟩ := pairLoop_spec hc threads ht hS h32 P (polys.length / 2) 0 polys
    (by omega) (by simpa using hI)
  rw [zero_add] at h3
  unfold rootsRound
  simp only [h1, Option.bind_eq_bind, Option.bind_some]
  by_cases hodd : polys.length % 2 = 1
  · have hlt : polys.length / 2 < q.length - 1 := by omega
    simp only [hodd, if_true, true_and]
    rw [if_pos hlt, swapPolys, List.getElem?_eq_getElem (show polys.length / 2 < q.length by omega),
      List.getElem?_eq_getElem (show q.length - 1 < q.length by omega)]
    refine ⟨_, rfl, by simp; omega, by simp; omega, ?_⟩
    have e : (((q.set (polys.length / 2) q[q.length - 1]).set (q.length - 1)
        q[polys.length / 2]).take (polys.length / 2 + 1)) =
        q.take (polys.length / 2) ++ q.drop (2 * (polys.length / 2)) := by
      have hd : q.drop (2 * (polys.length / 2)) = [q[q.length - 1]] := by
        have : 2 * (polys.length / 2) = q.length - 1 := by omega
        rw [this, List.drop_eq_getElem_cons (show q.length - 1 < q.length by omega),
          List.drop_of_length_le (by omega)]
      rw [hd, List.take_set_of_le (by omega), List.take_succ, List.take_set_of_le (Nat.le_refl _)]
      simp [show polys.length / 2 < q.length by omega]
    rw [e]; exact h3
  · simp only [hodd, if_false, false_and, add_zero]
    refine ⟨_, rfl, by simp; omega, by simp; omega, ?_⟩
    have hd : q.drop (2 * (polys.length / 2)) = [] := List.drop_of_length_le (by omega)
    rw [hd, List.append_nil] at h3
    exact h3

theorem rootsLoop_spec {c : FieldConsts F} (hc : c.Ok) (threads : ℕ) (ht : 0 < threads) {n : ℕ}
    (hS : Nat.clog 2 (n + 1) ≤ c.S) (h32 : Nat.clog 2 (n + 1) ≤ 32) (P : F[X]) :
    ∀ (fuel : ℕ) (polys : List (List F)), 1 ≤ polys.length → polys.length ≤ fuel →
      TreeInv n P polys →
      ∃ p, rootsLoop threads c (nextPow2 (n + 1)) fuel polys = some [p] ∧ TreeInv n P [p]
  | 0, polys, h1, h2, _ => by omega
  | fuel + 1, polys, h1, h2, hI => by
    rw [rootsLoop]
    split
    · rename_i h
      obtain ⟨polys', h3, h4, h5, h6⟩ := rootsRound_spec hc threads ht hS h32 P polys h hI
      rw [h3, Option.bind_some]
      exact rootsLoop_spec hc threads ht hS h32 P fuel polys' h4 (by omega) h6
    · rename_i h
      obtain ⟨p, rfl⟩ := List.length_eq_one_iff.1 (by omega : polys.length = 1)
      exact ⟨p, rfl, hI⟩

theorem polyWithRoots_spec {c : FieldConsts F} (hc : c.Ok) (threads : ℕ) (ht : 0 < threads)
    (roots : List F) (hS : Nat.clog 2 (roots.length + 1) ≤ c.S)
    (h32 : Nat.clog 2 (roots.length + 1) ≤ 32) :
    ∃ p, polyWithRoots threads c roots = some p ∧ p.length = roots.length + 1 ∧
      toPoly p = (roots.map fun r => (X - C r : F[X])).prod := by
  unfold polyWithRoots
  by_cases h : roots = []
  · subst h
    exact ⟨[1], by simp, by simp, by simp [toPoly]⟩
  · rw [if_neg (by simpa using h)]
    have hI : TreeInv roots.length (roots.map fun r => (X - C r : F[X])).prod
        (roots.map fun r => [-r, 1]) := by
      refine ⟨fun p hp => ?_, ?_, ?_⟩
      · obtain ⟨r, -, rfl⟩ := List.mem_map.1 hp
        simp
      · simp [Function.comp_def]
      · rw [List.map_map]
        congr 1
        refine List.map_congr_left fun r _ => ?_
        simp [toPoly, sum_range_succ]; ring
    obtain ⟨p, h1, h2⟩ := rootsLoop_spec hc threads ht hS h32 _ roots.length
      (roots.map fun r => [-r, 1]) (by rw [List.length_map]; exact List.length_pos_iff.2 h) (by simp) hI
    refine ⟨p, by rw [h1]; rfl, ?_, ?_⟩
    · have h3 := h2.deg
      have h4 : 0 < p.length := List.length_pos_iff.2 (h2.ne p (by simp))
      simp at h3; omega
    · simpa using h2.prod

end Ragu.Fft
