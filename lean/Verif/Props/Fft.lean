/-
Properties C05, C06 and C07: polynomials from roots, FFT and evaluation domains.
-/
import Verif.Lemmas.Domain
import Verif.Lemmas.TestField

set_option linter.unusedSectionVars false

namespace Ragu.Props
open Finset Polynomial Ragu Ragu.Fft

variable {F : Type} [Field F] {M : Type} [AddCommGroup M] [Module F M]

theorem list_eq_tab (a : List M) : a = tab a.length fun j => a.getD j 0 := eq_tab a 0

/-! ### C06 -/

/-- C06: for every size `2^L` (up to 2^32, where the 32-bit bit reversal stops), every thread count
and every root `ω` with `ω^(2^L / 2) = -1`, the FFT is the list of evaluations
`Σ_j ω^(i·j) a_j`. The elements may live in any module over the scalars. -/
theorem C06_fft (threads : ℕ) (ht : 0 < threads) (L : ℕ) (hL : L ≤ 32) (omega : F)
    (hw : 1 ≤ L → omega ^ 2 ^ (L - 1) = -1) (a : List M) (ha : a.length = 2 ^ L) :
    ∃ b, Fft.fft threads a omega L = some b ∧ b.length = 2 ^ L ∧
      ∀ i < 2 ^ L, b[i]? = some (∑ j ∈ range (2 ^ L), (omega ^ i) ^ j • a.getD j 0) := by
  refine ⟨tab (2 ^ L) (dft (2 ^ L) omega fun j => a.getD j 0), ?_, by simp, fun i hi => ?_⟩
  · conv_lhs => rw [list_eq_tab a, ha]
    exact fft_tab threads ht omega L hL hw _
  · rw [tab_getElem? _ _ _ hi, dft]
    simp only [pow_mul]

/-- C06: the result does not depend on the number of threads, so the iterative and the recursive
path agree. -/
theorem C06_paths_agree (t1 t2 : ℕ) (h1 : 0 < t1) (h2 : 0 < t2) (L : ℕ) (hL : L ≤ 32) (omega : F)
    (hw : 1 ≤ L → omega ^ 2 ^ (L - 1) = -1) (a : List M) (ha : a.length = 2 ^ L) :
    Fft.fft t1 a omega L = Fft.fft t2 a omega L := by
  rw [list_eq_tab a, ha, fft_tab t1 h1 omega L hL hw, fft_tab t2 h2 omega L hL hw]

/-- C06: the two butterfly schedules return the same list, whatever thread count selects them, on
every bit-reversed input. -/
theorem C06_schedules_agree (L : ℕ) (omega : F) (hw : omega ^ 2 ^ L = -1) (f : ℕ → M) :
    iterLoop (twiddleScan omega (2 ^ (L + 1) / 2) 1) (L + 1) 2 (2 ^ (L + 1) / 2)
        (tab (2 ^ (L + 1)) fun i => f (reverseBits (L + 1) i)) =
      recButterfly (twiddleScan omega (2 ^ (L + 1) / 2) 1) (2 ^ (L + 1)) 1
        (tab (2 ^ (L + 1)) fun i => f (reverseBits (L + 1) i)) := by
  have e1 := iter_tab (M := M) omega (2 ^ (L + 1) / 2) (L + 1) 1 (2 ^ (L + 1) / 2) f
    (by rw [pow_succ]; omega) le_rfl (fun _ => by rw [pow_one]; exact hw)
    (fun _ => by rw [Nat.add_sub_cancel, pow_succ]; omega)
  have e2 := rec_tab (M := M) omega (2 ^ (L + 1) / 2) L 1 f (by rw [pow_succ]; omega) le_rfl
    (by rw [pow_one]; exact hw)
  rw [twiddleScan_eq]
  simp only [one_mul]
  rw [e1, e2]

/-- C06: a wrong input length panics. -/
theorem C06_fft_panics (threads : ℕ) (L : ℕ) (omega : F) (a : List M) (ha : a.length ≠ 2 ^ L) :
    Fft.fft threads a omega L = none := by
  unfold Fft.fft log2Floor
  split
  · simp [Nat.shiftLeft_eq, ha]
  · rfl

/-- C06: `ifft` inverts `fft` and `fft` inverts `ifft`, for every domain the constructor returns. -/
theorem C06_round_trip {c : FieldConsts F} (hc : c.Ok) {k : ℕ} (hk : k ≤ 32) {d : Domain F}
    (hd : Domain.new c k = some d) (threads : ℕ) (ht : 0 < threads) (a : List M)
    (ha : a.length = d.n) :
    (d.fft threads a).bind (d.ifft threads) = some a ∧
    (d.ifft threads a).bind (d.fft threads) = some a := by
  have hkS : k ≤ c.S := by
    by_contra h
    rw [Domain.new, if_neg h] at hd; cases hd
  obtain ⟨d', h1, hg⟩ := Domain.new_good hc hkS
  rw [hd] at h1
  cases h1
  rw [hg.size] at ha
  constructor
  · rw [list_eq_tab a, ha, hg.fft_tab hk threads ht, Option.bind_some, hg.ifft_tab hk threads ht]
  · have e1 : d.ifft threads (tab (2 ^ k) fun j => a.getD j 0) =
        some (tab (2 ^ k) fun i => d.nInv • dft (2 ^ k) d.omegaInv (fun j => a.getD j 0) i) := by
      rw [Domain.ifft, hg.log, fft_tab threads ht d.omegaInv k hk hg.half_inv, Option.map_some, tab,
        List.map_map]
      rfl
    rw [list_eq_tab a, ha, e1, Option.bind_some, hg.fft_tab hk threads ht]
    congr 1
    refine tab_congr fun i hi => ?_
    have : dft (2 ^ k) d.omega (fun i => d.nInv • dft (2 ^ k) d.omegaInv (fun j => a.getD j 0) i) i =
        d.nInv • dft (2 ^ k) d.omega (dft (2 ^ k) d.omegaInv fun j => a.getD j 0) i := by
      simp only [dft, smul_sum]
      refine sum_congr rfl fun j _ => sum_congr rfl fun l _ => ?_
      simp only [smul_smul]; congr 1; ring
    rw [this, dft_inv hg.inv_prim (by rw [mul_comm]; exact hg.inv) _ hi, smul_smul]
    have h3 := hg.ninv
    push_cast
    rw [mul_comm, h3, one_smul]

/-! ### C07 -/

/-- C07: the domain of size `2^k`, for every `k` up to the two-adicity: its size, a primitive root
of that order, and matching inverses. -/
theorem C07_new {c : FieldConsts F} (hc : c.Ok) (k : ℕ) (hk : k ≤ c.S) :
    ∃ d, Domain.new c k = some d ∧ d.n = 2 ^ k ∧ d.log2n = k ∧ IsPrimitiveRoot d.omega (2 ^ k) ∧
      d.omega * d.omegaInv = 1 ∧ (d.n : F) * d.nInv = 1 := by
  obtain ⟨d, h1, h2⟩ := Domain.new_good hc hk
  refine ⟨d, h1, h2.size, h2.log, h2.prim, h2.inv, ?_⟩
  rw [h2.size]; push_cast; exact h2.ninv

/-- C07: a domain larger than the field supports panics. -/
theorem C07_new_panics {c : FieldConsts F} (hc : c.Ok) (k : ℕ) :
    Domain.new c k = none ↔ c.S < k := by
  constructor
  · intro h
    by_contra hlt
    obtain ⟨d, h1, -⟩ := Domain.new_good hc (k := k) (by omega)
    rw [h] at h1; cases h1
  · intro h; rw [Domain.new, if_neg (by omega)]

section
variable [DecidableEq F]

/-- C07: `contains` accepts exactly the powers of `ω`. -/
theorem C07_contains {c : FieldConsts F} (hc : c.Ok) {k : ℕ} {d : Domain F}
    (hd : Domain.new c k = some d) (x : F) : d.contains x = true ↔ ∃ i < d.n, x = d.omega ^ i := by
  have hk : k ≤ c.S := by
    by_contra h; rw [Domain.new, if_neg h] at hd; cases hd
  obtain ⟨d', h1, hg⟩ := Domain.new_good hc hk
  rw [hd] at h1; cases h1
  have : NeZero (2 ^ k) := ⟨by positivity⟩
  rw [Domain.contains, decide_eq_true_iff, hg.size]
  constructor
  · intro h
    obtain ⟨i, hi, h⟩ := hg.prim.eq_pow_of_pow_eq_one h
    exact ⟨i, hi, h.symm⟩
  · rintro ⟨i, -, rfl⟩
    rw [← pow_mul, mul_comm, pow_mul, hg.prim.pow_eq_one, one_pow]

/-- C07: `ell(x, m)` is `None` exactly when `x` is in the domain; otherwise it lists the first `m`
Lagrange basis values at `x`. It panics when `m` exceeds the size. -/
theorem C07_ell {c : FieldConsts F} (hc : c.Ok) {k : ℕ} {d : Domain F}
    (hd : Domain.new c k = some d) (x : F) (m : ℕ) :
    (d.n < m → d.ell x m = none) ∧
    (m ≤ d.n → (∃ i < d.n, x = d.omega ^ i) → d.ell x m = some none) ∧
    (m ≤ d.n → (¬∃ i < d.n, x = d.omega ^ i) → ∃ l, d.ell x m = some (some l) ∧ l.length = m ∧
      ∀ i < m, l[i]? = some (∏ j ∈ (range d.n).erase i,
        (x - d.omega ^ j) / (d.omega ^ i - d.omega ^ j))) := by
  have hmem := C07_contains hc hd x
  rw [Domain.contains, decide_eq_true_iff] at hmem
  have hk : k ≤ c.S := by
    by_contra h; rw [Domain.new, if_neg h] at hd; cases hd
  obtain ⟨d', h1, hg⟩ := Domain.new_good hc hk
  rw [hd] at h1; cases h1
  refine ⟨fun h => by rw [Domain.ell, if_neg (by omega)], fun hm hx => ?_, fun hm hx => ?_⟩
  · rw [Domain.ell, if_pos hm]
    simp only
    rw [if_pos (hmem.2 hx)]
  · have hx' : x ^ d.n ≠ 1 := fun h => hx (hmem.1 h)
    rw [Domain.ell, if_pos hm]
    simp only
    rw [if_neg hx', denominators_eq, tab, List.map_map]
    refine ⟨_, rfl, ?_, fun i hi => ?_⟩
    · rw [← tab, numerators_eq]; simp
    · rw [← tab, numerators_eq, tab_getElem? _ _ _ hi, ← hg.lagrange hx' (by omega : i < d.n)]
      simp

end

/-! ### C05 -/

theorem roots_monic (roots : List F) : ((roots.map fun r => (X - C r : F[X])).prod).Monic ∧
    ((roots.map fun r => (X - C r : F[X])).prod).natDegree = roots.length := by
  induction roots with
  | nil => simp
  | cons r rs ih =>
    rw [List.map_cons, List.prod_cons]
    refine ⟨(monic_X_sub_C r).mul ih.1, ?_⟩
    rw [(monic_X_sub_C r).natDegree_mul ih.1, ih.2, natDegree_X_sub_C, List.length_cons, add_comm]

/-- C05: for every list of roots that the field's domains can hold, the result is the coefficient
list, of length one more than the number of roots, of the product of the `X - r_i`. -/
theorem C05_poly_with_roots {c : FieldConsts F} (hc : c.Ok) (threads : ℕ) (ht : 0 < threads)
    (roots : List F) (hS : roots.length + 1 ≤ 2 ^ c.S) (h32 : roots.length + 1 ≤ 2 ^ 32) :
    ∃ p, polyWithRoots threads c roots = some p ∧ p.length = roots.length + 1 ∧
      (∀ k, p.getD k 0 = ((roots.map fun r => (X - C r : F[X])).prod).coeff k) ∧
      p.getLast? = some 1 := by
  obtain ⟨p, h1, h2, h3⟩ := polyWithRoots_spec hc threads ht roots
    (Nat.clog_le_of_le_pow hS) (Nat.clog_le_of_le_pow h32)
  have hco : ∀ k, p.getD k 0 = ((roots.map fun r => (X - C r : F[X])).prod).coeff k := fun k => by
    rw [← h3, toPoly_coeff]
  refine ⟨p, h1, h2, hco, ?_⟩
  obtain ⟨hm, hd⟩ := roots_monic roots
  have hl := hco roots.length
  rw [← hd, hm.coeff_natDegree, hd, List.getD_eq_getElem?_getD,
    List.getElem?_eq_getElem (by omega)] at hl
  rw [List.getLast?_eq_getElem?, h2, Nat.add_sub_cancel, List.getElem?_eq_getElem (by omega)]
  exact congrArg some hl

/-- C05: the value at every `x` is the product of the `x - r_i`. -/
theorem C05_eval {c : FieldConsts F} (hc : c.Ok) (threads : ℕ) (ht : 0 < threads)
    (roots : List F) (hS : roots.length + 1 ≤ 2 ^ c.S) (h32 : roots.length + 1 ≤ 2 ^ 32) (x : F) :
    ∃ p, polyWithRoots threads c roots = some p ∧
      ∑ k ∈ range p.length, p.getD k 0 * x ^ k = (roots.map fun r => x - r).prod := by
  obtain ⟨p, h1, h2, h3⟩ := polyWithRoots_spec hc threads ht roots
    (Nat.clog_le_of_le_pow hS) (Nat.clog_le_of_le_pow h32)
  refine ⟨p, h1, ?_⟩
  rw [← toPoly_eval p p.length le_rfl x, h3, eval_list_prod, List.map_map]
  congr 1
  exact List.map_congr_left fun r _ => by simp

/-! ### Concrete cases -/

/-- F_17 with its generator 3 of order 16. -/
private def consts17 : FieldConsts (ZMod 17) := ⟨4, 3, 6, 9⟩

private theorem consts17_ok : consts17.Ok := by
  refine ⟨?_, by decide, by decide⟩
  refine IsPrimitiveRoot.mk_of_lt _ (by decide) (by decide) ?_
  intro l h1 h2
  change l < 16 at h2
  interval_cases l <;> decide

example : consts17.Ok := consts17_ok
example : (Domain.new consts17 2).map (fun d => (d.n, d.omega, d.omegaInv, d.nInv)) =
    some (4, 13, 4, 13) := by decide +kernel
example : (Domain.new consts17 3).bind (fun d => d.fft 1 ([1, 2, 3, 4, 5, 6, 7, 8] : List (ZMod 17))) =
    (Domain.new consts17 3).bind fun d => d.fft 64 [1, 2, 3, 4, 5, 6, 7, 8] := by decide +kernel
example : ((Domain.new consts17 2).bind fun d => d.ell 13 3) = some none := by decide +kernel
/-- Five roots need a domain of size 8, within the 16 that F_17 supports. -/
example : ([1, 2, 3, 5, 7] : List (ZMod 17)).length + 1 ≤ 2 ^ consts17.S := by decide
/-- The point 5 is outside the domain of size 4. -/
example : ∀ d, Domain.new consts17 2 = some d → d.contains 5 = false := by
  intro d hd
  have : (Domain.new consts17 2).map (fun d => d.contains 5) = some false := by decide +kernel
  rw [hd] at this
  exact Option.some.inj this

end Ragu.Props
