/-
From the equations that a verifier checks to what the masks and the circuits say.
-/
import Verif.Props.Verify
import Verif.Props.Realize
import Verif.Props.App

set_option linter.unusedSectionVars false

namespace Ragu.Props
open Ragu Ragu.Circuit Ragu.Registry Ragu.Spec Ragu.Pcd Finset
variable {F : Type} [Field F] [DecidableEq F]

/-! ### Counting -/

theorem roots_le {k : ℕ} (g : ℕ → F) {j0 : ℕ} (hj : j0 < k) (h0 : g j0 ≠ 0) (A : Finset F) :
    (A.filter fun z => ∑ j ∈ range k, g j * z ^ j = 0).card ≤ k - 1 := by
  by_contra hc
  exact h0 (coeffs_zero g (A.filter fun z => ∑ j ∈ range k, g j * z ^ j = 0) (by omega)
    (fun z hz => (mem_filter.1 hz).2) j0 hj)

/-- Combining `k` functions of `y` by powers of `z`: if one of them has at most `d` zeros, the
combination is zero for at most `d + k - 1` of the pairs per element. -/
theorem pairs_card {k d : ℕ} (f : ℕ → F → F) {i0 : ℕ} (hi : i0 < k) (A : Finset F)
    (h0 : (A.filter fun y => f i0 y = 0).card ≤ d) :
    ((A ×ˢ A).filter fun p => ∑ i ∈ range k, p.2 ^ (k - 1 - i) * f i p.1 = 0).card ≤
      (d + (k - 1)) * A.card := by
  have hrow : ∀ y, (A.filter fun z => ∑ i ∈ range k, z ^ (k - 1 - i) * f i y = 0).card ≤
      (if f i0 y = 0 then A.card else 0) + (k - 1) := by
    intro y
    by_cases h : f i0 y = 0
    · rw [if_pos h]
      exact (card_filter_le _ _).trans (by omega)
    · rw [if_neg h, zero_add]
      have := roots_le (k := k) (fun j => f (k - 1 - j) y) (j0 := k - 1 - i0) (by omega)
        (by simpa only [show k - 1 - (k - 1 - i0) = i0 by omega] using h) A
      refine le_trans (le_of_eq (congrArg Finset.card (filter_congr fun z _ => ?_))) this
      rw [← sum_range_reflect]
      refine Eq.congr_left (sum_congr rfl fun j hj => ?_)
      have := mem_range.1 hj
      rw [show k - 1 - (k - 1 - j) = j by omega, mul_comm]
  rw [card_filter, sum_product]
  calc ∑ y ∈ A, ∑ z ∈ A, (if ∑ i ∈ range k, z ^ (k - 1 - i) * f i y = 0 then 1 else 0)
      ≤ ∑ y ∈ A, ((if f i0 y = 0 then A.card else 0) + (k - 1)) := by
        refine sum_le_sum fun y _ => ?_
        rw [← card_filter]
        exact hrow y
    _ = (A.filter fun y => f i0 y = 0).card * A.card + A.card * (k - 1) := by
        rw [sum_add_distrib, ← sum_filter, sum_const, sum_const, smul_eq_mul, smul_eq_mul]
    _ ≤ (d + (k - 1)) * A.card := by
        have := Nat.mul_le_mul_right A.card h0
        rw [Nat.add_mul, Nat.mul_comm A.card]
        omega

/-! ### Masks -/

/-- What the verifier checks of polynomials that a mask applies to. -/
def BondingClaim (n : ℕ) (o : CircuitObject F) (key : F) (rxs : List (Sparse.Poly F)) (y z : F) :
    Prop :=
  ∃ s, WiringCoeffs n o key y s ∧
    ∑ k ∈ range (4 * n), foldCoeff z rxs k * s (4 * n - 1 - k) = 0

/-- The polynomial in `y` that a mask's check evaluates. -/
def maskTerm (n skip num : ℕ) (key : F) (r : Sparse.Poly F) (e : ℕ) : F :=
  maskCoeff n skip num r e + if e = 4 * n - 1 then key * coeff r 0 else 0

theorem mask_claim {n skip num : ℕ} {m : StageMask} (h : StageMask.new n skip num = .ok m)
    (hn : 0 < n) {key y : F} {s : ℕ → F} (hs : WiringCoeffs n (m.object n) key y s)
    {r : Sparse.Poly F} (hr : WellFormed (4 * n) r) :
    ∑ k ∈ range (4 * n), coeff r k * s (4 * n - 1 - k) =
      ∑ e ∈ range (4 * n), maskTerm n skip num key r e * y ^ e := by
  rw [(C26_new n skip num).1] at h
  split_ifs at h with h1 h2
  cases h
  obtain ⟨q, q1, q2, q3⟩ := mask_revdot (m := ⟨skip, num⟩) (show 0 < skip by omega)
    (show skip + num ≤ n by omega) hr y
  obtain ⟨p, p1, p2⟩ := hs
  have hpq : p = q := Option.some.inj (p1.symm.trans q1)
  subst hpq
  have e : ∀ k ∈ range (4 * n), coeff r k * s (4 * n - 1 - k) =
      coeff r k * coeff p (4 * n - 1 - k) +
        if k = 0 then key * coeff r 0 * y ^ (4 * n - 1) else 0 := by
    intro k hk
    have := mem_range.1 hk
    rw [p2]
    by_cases h0 : k = 0
    · subst h0
      rw [if_pos (by omega), if_pos rfl]; ring
    · rw [if_neg (by omega), if_neg h0]; ring
  rw [sum_congr rfl e, sum_add_distrib, ← C11_revdot _ _ _ hr q2, q3,
    sum_ite_eq' (range _) 0, if_pos (mem_range.2 (by omega))]
  simp only [maskTerm, add_mul, sum_add_distrib]
  congr 1
  rw [sum_eq_single (4 * n - 1)]
  · rw [if_pos rfl]
  · intro b _ hb
    rw [if_neg hb, zero_mul]
  · intro hb
    exact absurd (mem_range.2 (by omega)) hb

theorem maskTerm_zero {n skip num : ℕ} {key : F} {r : Sparse.Poly F}
    (h : ∀ e < 4 * n, maskTerm n skip num key r e = 0) : OnlyIn n skip num r := by
  rw [onlyIn_iff]
  intro e he
  by_cases hl : e = 4 * n - 1
  · rw [maskCoeff, if_neg]
    intro hm
    apply hm.1
    subst hl
    have := gateOf_wiringExp (n := n) (j := 0) (by omega) .c
    rw [← this]
    congr 1
  · have := h e he
    rwa [maskTerm, if_neg hl, add_zero] at this

theorem fold_sum (N : ℕ) (z : F) (rxs : List (Sparse.Poly F)) (g : ℕ → F) :
    ∑ k ∈ range N, foldCoeff z rxs k * g k = ∑ i ∈ range rxs.length,
      z ^ (rxs.length - 1 - i) * ∑ k ∈ range N, coeff (rxs.getD i []) k * g k := by
  simp only [foldCoeff, sum_mul, mul_sum]
  rw [sum_comm]
  refine sum_congr rfl fun i _ => sum_congr rfl fun k _ => by ring

open Classical in
/-- Polynomials that pass a mask's check for more than `(4 n + k - 2) |A|` of the pairs of challenges
from `A`, where `k` is their number, have no wires outside the mask's gates. -/
theorem bonding_sound {n skip num : ℕ} {m : StageMask} (h : StageMask.new n skip num = .ok m)
    (hn : 0 < n) (key : F) {rxs : List (Sparse.Poly F)} (hr : ∀ r ∈ rxs, WellFormed (4 * n) r)
    (A : Finset F) (hmany : (4 * n - 1 + (rxs.length - 1)) * A.card <
      ((A ×ˢ A).filter fun p => BondingClaim n (m.object n) key rxs p.1 p.2).card) :
    ∀ r ∈ rxs, OnlyIn n skip num r := by
  intro r hrm
  by_contra hbad
  obtain ⟨i, hi, rfl⟩ := List.getElem_of_mem hrm
  have hget : ∀ j < rxs.length, WellFormed (4 * n) (rxs.getD j []) := by
    intro j hj
    rw [List.getD_eq_getElem?_getD, List.getElem?_eq_getElem hj]
    exact hr _ (List.getElem_mem hj)
  have hgi : rxs.getD i [] = rxs[i] := by
    rw [List.getD_eq_getElem?_getD, List.getElem?_eq_getElem hi]; rfl
  have hex : ∃ e < 4 * n, maskTerm n skip num key (rxs.getD i []) e ≠ 0 := by
    by_contra hc
    push Not at hc
    exact hbad (maskTerm_zero (hgi ▸ hc))
  obtain ⟨e, he, hne⟩ := hex
  have := pairs_card (k := rxs.length) (fun j y => ∑ e ∈ range (4 * n),
    maskTerm n skip num key (rxs.getD j []) e * y ^ e) hi A (roots_le _ he hne A)
  refine absurd (hmany.trans_le (le_trans (card_le_card fun p hp => ?_) this)) (lt_irrefl _)
  rw [mem_filter] at hp ⊢
  obtain ⟨hp, s, h1, h2⟩ := hp
  refine ⟨hp, ?_⟩
  rw [fold_sum] at h2
  rw [← h2]
  refine sum_congr rfl fun j hj => ?_
  rw [mask_claim h hn h1 (hget j (mem_range.1 hj))]

/-! ### Circuits -/

theorem kyEval_instanceAt (inst : List F) (y : F) : Ky.kyEval inst y = instanceAt inst y := by
  rw [C21_ky, instanceAt]

theorem instanceAt_ky (inst : List F) (y : F) : instanceAt inst y = Ky.kyEval inst y :=
  (kyEval_instanceAt inst y).symm

/-- What the verifier checks of a circuit's trace. -/
def CircuitClaim (n : ℕ) (o : CircuitObject F) (key : F) (rxs : List (Sparse.Poly F))
    (inst : List F) (y z : F) : Prop :=
  ∃ s, WiringCoeffs n o key y s ∧
    ∑ k ∈ range (4 * n), sumCoeff rxs k * (sumCoeff rxs (4 * n - 1 - k) * z ^ (4 * n - 1 - k) +
      s (4 * n - 1 - k) + tCoeff n z (4 * n - 1 - k)) = instanceAt inst y

theorem circuit_claim {E : Env F} {n : ℕ} {R : Registry F} {i : ℕ} {c : Circ F}
    (h : Holds E n R i c) {o : CircuitObject F} (ho : R.circuits[i]? = some o)
    {rxs : List (Sparse.Poly F)} {r : Sparse.Poly F} (hr : WellFormed (4 * n) r)
    (hc : ∀ k, coeff r k = sumCoeff rxs k) {inst : List F} {y z : F} :
    CircuitClaim n o R.key rxs inst y z ↔ RegistryClaim E n R i r inst y z := by
  obtain ⟨hn, hN, p, t, h1, h2, h3, h4, h5⟩ := circuitY_coeff h y
  obtain ⟨tz, htz, htzwf, -⟩ := C14_tz_coeffs n z
  have htc := tz_coeffs htz
  have hsy : o.sy y (floorPlan o.segmentRecords) = some p := by
    obtain ⟨o', g1, g2⟩ := h.here
    rw [ho, Option.some.injEq] at g2
    subst g2
    obtain ⟨m, hm, rfl⟩ := circuitObject_ok g1
    have hseg := (registered h.used hm).2.2
    rw [intoRawCircuitObject]
    simp only [hseg, h1, Circuit.expect]
  obtain ⟨b1, hb1, hb1wf, hb1c⟩ := Sparse.combineAssign_spec (4 * n) (fun a b : F => a + b)
    (by simp) (Sparse.dilate r z) t (Sparse.dilate_wf hr z) h4
  obtain ⟨b, hb, hbwf, hbc⟩ := Sparse.combineAssign_spec (4 * n) (fun a b : F => a + b) (by simp)
    b1 tz hb1wf htzwf
  have hclaim : claimB n r t tz z = some b := by
    simp only [claimB, Sparse.addAssign, hb1, Option.bind_eq_bind, Option.bind_some, hb]
  have hrev : Sparse.revdot (4 * n) r b = ∑ k ∈ range (4 * n), sumCoeff rxs k *
      (sumCoeff rxs (4 * n - 1 - k) * z ^ (4 * n - 1 - k) + coeff t (4 * n - 1 - k) +
        tCoeff n z (4 * n - 1 - k)) := by
    rw [C11_revdot _ _ _ hr hbwf]
    refine sum_congr rfl fun k _ => ?_
    rw [hbc, hb1c, hc, Sparse.dilate_coeff hr, hc, htc]
  constructor
  · rintro ⟨s, ⟨p', e1, e2⟩, e3⟩
    rw [hsy, Option.some.injEq] at e1
    subst e1
    refine ⟨t, tz, b, h2, htz, hclaim, ?_⟩
    rw [hrev, kyEval_instanceAt, ← e3]
    refine sum_congr rfl fun k _ => ?_
    rw [h5, e2]
  · rintro ⟨sy, tz', b', e1, e2, e3, e4⟩
    rw [h2, Option.some.injEq] at e1; subst e1
    rw [htz, Option.some.injEq] at e2; subst e2
    rw [hclaim, Option.some.injEq] at e3; subst e3
    exact ⟨coeff t, ⟨p, hsy, h5⟩, by rw [← hrev, e4, kyEval_instanceAt]⟩

end Ragu.Props
