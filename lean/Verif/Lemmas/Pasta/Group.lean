/-
The moduli of the Pasta fields are prime, and the groups of the Pasta curves have each other's modulus
as their order.
-/
import Verif.Model.Pasta.Fields
import Verif.Lemmas.Pasta.Chains
import Verif.Lemmas.CurveCert
import Verif.Lemmas.Endoscale
import Mathlib.FieldTheory.Finite.Basic
import Mathlib.Tactic.NormNum.Prime

set_option linter.unusedSectionVars false
set_option maxRecDepth 20000
namespace Ragu.Pasta
open Ragu Ragu.Cert Ragu.Props Ragu.Pcd WeierstrassCurve.Affine

/-! ### `p` is prime -/

theorem prime_115603 : Nat.Prime 115603 := by norm_num
theorem prime_413527 : Nat.Prime 413527 := by norm_num
theorem prime_772231 : Nat.Prime 772231 := by norm_num
theorem prime_897019 : Nat.Prime 897019 := by norm_num
theorem prime_1197907 : Nat.Prime 1197907 := by norm_num
theorem prime_6942563 : Nat.Prime 6942563 := by norm_num
theorem prime_41655379 : Nat.Prime 41655379 :=
  pratt (a := 2) (factors := [(2, 1), (3, 1), (6942563, 1)])
    (by decide +kernel)
    (by simp only [List.mem_cons, List.not_mem_nil, or_false, forall_eq_or_imp, forall_eq]
        exact ⟨by norm_num, by norm_num, prime_6942563⟩)
theorem prime_22160661629 : Nat.Prime 22160661629 :=
  pratt (a := 3) (factors := [(2, 2), (7, 1), (19, 1), (41655379, 1)])
    (by decide +kernel)
    (by simp only [List.mem_cons, List.not_mem_nil, or_false, forall_eq_or_imp, forall_eq]
        exact ⟨by norm_num, by norm_num, by norm_num, prime_41655379⟩)
theorem prime_417677162933 : Nat.Prime 417677162933 :=
  pratt (a := 2) (factors := [(2, 2), (59, 1), (1973, 1), (897019, 1)])
    (by decide +kernel)
    (by simp only [List.mem_cons, List.not_mem_nil, or_false, forall_eq_or_imp, forall_eq]
        exact ⟨by norm_num, by norm_num, by norm_num, prime_897019⟩)
theorem prime_325086459374267 : Nat.Prime 325086459374267 :=
  pratt (a := 2) (factors := [(2, 1), (509, 1), (413527, 1), (772231, 1)])
    (by decide +kernel)
    (by simp only [List.mem_cons, List.not_mem_nil, or_false, forall_eq_or_imp, forall_eq]
        exact ⟨by norm_num, by norm_num, prime_413527, prime_772231⟩)
theorem prime_539204044132271846773 : Nat.Prime 539204044132271846773 :=
  pratt (a := 5) (factors := [(2, 2), (3, 5), (89, 1), (14923, 1), (417677162933, 1)])
    (by decide +kernel)
    (by simp only [List.mem_cons, List.not_mem_nil, or_false, forall_eq_or_imp, forall_eq]
        exact ⟨by norm_num, by norm_num, by norm_num, by norm_num, prime_417677162933⟩)
theorem prime_8999194758858563409123804352480028797519453 : Nat.Prime 8999194758858563409123804352480028797519453 :=
  pratt (a := 2) (factors := [(2, 2), (3, 4), (11, 1), (2531, 1), (115603, 1), (1197907, 1), (22160661629, 1), (325086459374267, 1)])
    (by decide +kernel)
    (by simp only [List.mem_cons, List.not_mem_nil, or_false, forall_eq_or_imp, forall_eq]
        exact ⟨by norm_num, by norm_num, by norm_num, by norm_num, prime_115603, prime_1197907, prime_22160661629, prime_325086459374267⟩)
theorem prime_p : p.Prime :=
  pratt (a := 5) (factors := [(2, 32), (3, 1), (463, 1), (539204044132271846773, 1), (8999194758858563409123804352480028797519453, 1)])
    (by decide +kernel)
    (by simp only [List.mem_cons, List.not_mem_nil, or_false, forall_eq_or_imp, forall_eq]
        exact ⟨by norm_num, by norm_num, by norm_num, prime_539204044132271846773, prime_8999194758858563409123804352480028797519453⟩)

/-! ### The generator -/

section
variable {K : Type} [Field K] [DecidableEq K] {N : ℕ}

theorem generator_nonsingular (h2 : 2 ≤ N) (hN : (N : K) = 0) (hb : GoodCurve (5 : K)) :
    (curve (5 : K)).Nonsingular ((N - 1 : ℕ) : K) ((2 : ℕ) : K) := by
  refine nonsingular_curve hb ?_
  rw [Nat.cast_sub (by omega), hN]
  push_cast
  ring

/-- A chain that ends in minus the generator. -/
theorem generator_order {n : ℕ} (h2 : 2 ≤ N) (hN : (N : K) = 0) (hb : GoodCurve (5 : K))
    {ops : List (Bool × ℕ)} (hn : 1 ≤ n)
    (hc : chain N (N - 1) 2 (n - 1) (N - 1) (N - 2) ops 1 (N - 1) 2 = true) :
    n • (.some _ _ (generator_nonsingular h2 hN hb) : (curve (5 : K)).Point) = 0 := by
  obtain ⟨h, e⟩ := chain_sound (K := K) (b := 5) (by omega) hN (generator_nonsingular h2 hN hb) ops 1 _ _ hc
    ⟨generator_nonsingular h2 hN hb, one_nsmul _⟩
  have : n = n - 1 + 1 := by omega
  rw [this, add_nsmul, one_nsmul, e]
  refine Point.add_of_Y_eq rfl ?_
  rw [negY_curve, Nat.cast_sub h2, hN]
  push_cast
  ring

/-- A point of prime order greater than twice the size of the field does not exist. -/
theorem no_large_order [Finite K] {n : ℕ} (hn : n.Prime) (h2 : 2 ≤ N) (hN : (N : K) = 0)
    (hb : GoodCurve (5 : K)) {ops : List (Bool × ℕ)}
    (hc : chain N (N - 1) 2 (n - 1) (N - 1) (N - 2) ops 1 (N - 1) 2 = true) :
    n ∣ Nat.card (curve (5 : K)).Point ∧ n ≤ 2 * Nat.card K + 1 := by
  have hd := order_dvd_card hn (Point.some_ne_zero _) (generator_order h2 hN hb hn.one_lt.le hc)
  have := Nat.le_of_dvd Nat.card_pos hd
  exact ⟨hd, this.trans (card_points_le 5)⟩

end

/-! ### `q` is prime -/

theorem vesta_chain : chain q (q - 1) 2 (p - 1) (q - 1) (q - 2) vestaOrderChain 1 (q - 1) 2 = true := by
  decide +kernel

theorem pallas_chain : chain p (p - 1) 2 (q - 1) (p - 1) (p - 2) pallasOrderChain 1 (p - 1) 2 = true := by
  decide +kernel

theorem goodCurve_of {r : ℕ} [Fact r.Prime] (h : r.Coprime 30) : GoodCurve (5 : ZMod r) := by
  have hr := (Fact.out : r.Prime)
  have key : ∀ m : ℕ, m ∣ 30 → 1 < m → ((m : ℕ) : ZMod r) ≠ 0 := by
    intro m hm h1 e
    rw [ZMod.natCast_eq_zero_iff] at e
    have : r ∣ 1 := by rw [← h]; exact Nat.dvd_gcd dvd_rfl (e.trans hm)
    exact hr.one_lt.ne' (Nat.dvd_one.1 this)
  exact ⟨by exact_mod_cast key 2 (by norm_num) (by norm_num),
    by exact_mod_cast key 3 (by norm_num) (by norm_num),
    by exact_mod_cast key 5 (by norm_num) (by norm_num)⟩

theorem prime_q : q.Prime := by
  by_contra hq
  have h2 : 2 ≤ q := by decide +kernel
  have hr := Nat.minFac_prime (n := q) (by omega)
  have hle := Nat.minFac_sq_le_self (n := q) (by omega) hq
  set r := q.minFac with hrdef
  have : Fact r.Prime := ⟨hr⟩
  have hd : r ∣ q := Nat.minFac_dvd q
  have hN : ((q : ℕ) : ZMod r) = 0 := (ZMod.natCast_eq_zero_iff _ _).2 hd
  have hco : r.Coprime 30 := Nat.Coprime.coprime_dvd_left hd (by decide +kernel)
  have := (no_large_order (K := ZMod r) prime_p h2 hN (goodCurve_of hco) vesta_chain).2
  rw [Nat.card_zmod] at this
  have hb : r < 2 ^ 128 := by
    by_contra hc
    push Not at hc
    have h1 : (2 ^ 128) ^ 2 ≤ r ^ 2 := Nat.pow_le_pow_left hc 2
    have h3 : q < (2 ^ 128) ^ 2 := by decide +kernel
    omega
  have hp : 2 * 2 ^ 128 + 1 < p := by decide +kernel
  omega

instance : Fact p.Prime := ⟨prime_p⟩
instance : Fact q.Prime := ⟨prime_q⟩

/-! ### The orders of the curves -/

theorem goodCurve_p : GoodCurve (5 : Fp) := goodCurve_of (by decide +kernel)
theorem goodCurve_q : GoodCurve (5 : Fq) := goodCurve_of (by decide +kernel)

/-- `Pallas` has `q` points. -/
theorem pallas_card : Nat.card (curve (5 : Fp)).Point = q := by
  obtain ⟨hd, hle⟩ := no_large_order (K := Fp) prime_q (by decide +kernel) (ZMod.natCast_self p) goodCurve_p
    pallas_chain
  have h1 := card_points_le (5 : Fp)
  rw [Nat.card_zmod] at h1
  obtain ⟨k, hk⟩ := hd
  have hpos : 0 < Nat.card (curve (5 : Fp)).Point := Nat.card_pos
  have hpq : 2 * p + 1 < 2 * q := by decide +kernel
  have : k < 2 := by
    by_contra hc
    push Not at hc
    have : q * 2 ≤ q * k := Nat.mul_le_mul_left _ hc
    omega
  have : k ≠ 0 := by rintro rfl; omega
  have : k = 1 := by omega
  rw [hk, this, mul_one]

/-- A power certificate that an element is not a power. -/
theorem not_pow_of {m : ℕ} [Fact m.Prime] {a e : ℕ} (he : e ∣ m - 1) (h1 : m < 2 ^ 256)
    (h0 : (a : ZMod m) ≠ 0) (h : powMod m a 256 ((m - 1) / e) ≠ 1) (x : ZMod m) : x ^ e ≠ a := by
  intro hx
  have hm := (Fact.out : m.Prime)
  have hx0 : x ≠ 0 := by
    rintro rfl
    rcases Nat.eq_zero_or_pos e with rfl | h
    · have := hm.one_lt
      have := Nat.eq_zero_of_zero_dvd he
      omega
    · rw [zero_pow h.ne'] at hx
      exact h0 hx.symm
  have hf := ZMod.pow_card_sub_one_eq_one hx0
  rw [← Nat.mul_div_cancel' he, pow_mul, hx, powMod_cast (ZMod.natCast_self m) (k := 256)
    (lt_of_le_of_lt (Nat.div_le_self _ _) (by omega))] at hf
  have hlt : (m - 1) / e < 2 ^ 256 := lt_of_le_of_lt (Nat.div_le_self _ _) (by omega)
  have : ((powMod m a 256 ((m - 1) / e) : ℕ) : ZMod m) = ((1 : ℕ) : ZMod m) := by
    rw [hf, Nat.cast_one]
  rw [ZMod.natCast_eq_natCast_iff', Nat.mod_eq_of_lt hm.one_lt, powMod_eq _ _ _ _ hlt, Nat.mod_mod] at this
  rw [powMod_eq _ _ _ _ hlt] at h
  exact h this

theorem cast_ne_zero {m : ℕ} {a : ℕ} (h0 : 0 < a) (h : a < m) : (a : ZMod m) ≠ 0 := by
  rw [Ne, ZMod.natCast_eq_zero_iff]
  exact fun hd => absurd (Nat.le_of_dvd h0 hd) (by omega)

theorem cube_q (x : Fq) : x ^ 3 + 5 ≠ 0 := by
  intro e
  refine not_pow_of (m := q) (a := q - 5) (e := 3) (by decide +kernel) (by decide +kernel)
    (cast_ne_zero (by decide +kernel) (by decide +kernel)) (by decide +kernel) x ?_
  rw [Nat.cast_sub (by decide +kernel), ZMod.natCast_self]
  push_cast
  linear_combination e

/-- `Vesta` has `p` points. -/
theorem vesta_card : Nat.card (curve (5 : Fq)).Point = p := by
  obtain ⟨hd, hle⟩ := no_large_order (K := Fq) prime_p (by decide +kernel) (ZMod.natCast_self q) goodCurve_q
    vesta_chain
  have h1 := card_points_le (5 : Fq)
  rw [Nat.card_zmod] at h1
  obtain ⟨k, hk⟩ := hd
  have hpos : 0 < Nat.card (curve (5 : Fq)).Point := Nat.card_pos
  have hpq : 2 * q + 1 < 3 * p := by decide +kernel
  have : k < 3 := by
    by_contra hc
    push Not at hc
    have : p * 3 ≤ p * k := Nat.mul_le_mul_left _ hc
    omega
  have h3 : k ≠ 0 := by rintro rfl; omega
  have h4 : k ≠ 2 := by
    rintro rfl
    exact two_not_dvd_card goodCurve_q.two cube_q ⟨p, by rw [hk]; ring⟩
  have : k = 1 := by omega
  rw [hk, this, mul_one]

/-! ### The endomorphisms -/

section
variable {K : Type} [Field K] [DecidableEq K]

/-- On a group of prime order the endomorphism is the multiplication that it is on the generator. -/
theorem endoGroup_of [Finite K] {n : ℕ} (hn : n.Prime) (hb : GoodCurve (5 : K))
    (hcard : Nat.card (curve (5 : K)).Point = n) {zeta : K} (hz : zeta ^ 3 = 1) {l : ℕ}
    (hl : n ∣ l ^ 2 + l + 1) {x y : K} (hg : (curve (5 : K)).Nonsingular x y)
    {hg' : (curve (5 : K)).Nonsingular (zeta * x) y}
    (he : l • (.some x y hg : (curve (5 : K)).Point) = .some (zeta * x) y hg') :
    EndoGroup (5 : K) zeta n l where
  prime := hn
  order := fun P => by rw [← hcard]; exact card_nsmul_eq_zero'
  cube := by exact_mod_cast hl
  endo := by
    rintro pt P ⟨h, rfl⟩
    have : Fact n.Prime := ⟨hn⟩
    have := isAddCyclic_of_prime_card hcard
    set G : (curve (5 : K)).Point := .some x y hg with hG
    have hmem : (.some pt.x.wire pt.y.wire h : (curve (5 : K)).Point) ∈ AddSubgroup.zmultiples G :=
      mem_zmultiples_of_prime_card hcard (Point.some_ne_zero _)
    obtain ⟨k, hk⟩ := AddSubgroup.mem_zmultiples_iff.1 hmem
    let f : (curve (5 : K)).Point →+ (curve (5 : K)).Point :=
      AddMonoidHom.mk' (endo hb hz) (endo_add hb hz)
    have hf : f G = l • G := by rw [he]; rfl
    have h1 : f (.some pt.x.wire pt.y.wire h) = (l : ℤ) • (.some pt.x.wire pt.y.wire h) := by
      rw [← hk, map_zsmul, hf, ← natCast_zsmul, smul_comm]
    rw [← h1]
    exact Represents.of_coords (nonsingular_endo hb hz h)
      (by simp [Gadget.Point.endo, Coeff.value, mul_comm]) (by simp [Gadget.Point.endo])

end

theorem pallas_endo_chain :
    chain p (p - 1) 2 zetaQ (p - zetaP) 2 pallasEndoChain 1 (p - 1) 2 = true := by decide +kernel

theorem vesta_endo_chain :
    chain q (q - 1) 2 zetaP (q - zetaQ) 2 vestaEndoChain 1 (q - 1) 2 = true := by decide +kernel

theorem cast_eq_one_of {m a : ℕ} (h : a % m = 1) : (a : ZMod m) = 1 := by
  rw [← ZMod.natCast_mod, h, Nat.cast_one]

theorem zetaP_cube : (zetaP : Fp) ^ 3 = 1 := by
  exact_mod_cast cast_eq_one_of (a := zetaP ^ 3) (m := p) (by decide +kernel)

theorem zetaQ_cube : (zetaQ : Fq) ^ 3 = 1 := by
  exact_mod_cast cast_eq_one_of (a := zetaQ ^ 3) (m := q) (by decide +kernel)

/-- The endomorphism of Pallas by `Fp::ZETA` is multiplication by `Fq::ZETA`. -/
theorem pallas_group : EndoGroup (5 : Fp) (zetaP : Fp) q (zetaQ : ℕ) := by
  have hN : ((p : ℕ) : Fp) = 0 := ZMod.natCast_self p
  have hns := generator_nonsingular (K := Fp) (N := p) (by decide +kernel) hN goodCurve_p
  obtain ⟨h, e⟩ := chain_sound (K := Fp) (b := 5) (by decide +kernel) hN hns _ 1 _ _ pallas_endo_chain
    ⟨hns, one_nsmul _⟩
  have hx : ((p - zetaP : ℕ) : Fp) = (zetaP : Fp) * ((p - 1 : ℕ) : Fp) := by
    rw [Nat.cast_sub (by decide +kernel), Nat.cast_sub (by decide +kernel), hN]
    push_cast
    ring
  refine endoGroup_of prime_q goodCurve_p pallas_card zetaP_cube (by decide +kernel) hns
    (hg' := by rw [← hx]; exact h) ?_
  rw [e]
  congr 1

/-- The endomorphism of Vesta by `Fq::ZETA` is multiplication by `Fp::ZETA`. -/
theorem vesta_group : EndoGroup (5 : Fq) (zetaQ : Fq) p (zetaP : ℕ) := by
  have hN : ((q : ℕ) : Fq) = 0 := ZMod.natCast_self q
  have hns := generator_nonsingular (K := Fq) (N := q) (by decide +kernel) hN goodCurve_q
  obtain ⟨h, e⟩ := chain_sound (K := Fq) (b := 5) (by decide +kernel) hN hns _ 1 _ _ vesta_endo_chain
    ⟨hns, one_nsmul _⟩
  have hx : ((q - zetaQ : ℕ) : Fq) = (zetaQ : Fq) * ((q - 1 : ℕ) : Fq) := by
    rw [Nat.cast_sub (by decide +kernel), Nat.cast_sub (by decide +kernel), hN]
    push_cast
    ring
  refine endoGroup_of prime_p goodCurve_q vesta_card zetaQ_cube (by decide +kernel) hns
    (hg' := by rw [← hx]; exact h) ?_
  rw [e]
  congr 1

end Ragu.Pasta
