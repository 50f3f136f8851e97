/-
Property C59: the multi-limb integer is a 136-bit machine word.
-/
import Verif.Model.Uendo
import Mathlib.Tactic.Ring

namespace Ragu.Props
open Ragu Ragu.Uendo

/-- Specification: the integer a value stands for, least significant limb first. -/
def uval (u : Uendo) : ℕ :=
  (u.limb 0).toNat + 2 ^ 64 * ((u.limb 1).toNat + 2 ^ 64 * (u.limb 2).toNat)

/-- A value is normalised if it is below `2^136`. -/
def Normal (u : Uendo) : Prop := uval u < 2 ^ 136

theorem limb_of_ge (u : Uendo) {i : ℕ} (h : 3 ≤ i) : u.limb i = 0 := by
  rw [limb, dif_neg]; simpa [LIMBS, BITS] using h

theorem limb_of_lt (u : Uendo) {i : ℕ} (h : i < LIMBS) : u.limb i = u.limbs ⟨i, h⟩ := by
  rw [limb, dif_pos h]

theorem uval_bit (u : Uendo) (i : ℕ) : (uval u).testBit i = (u.limb (i / 64)).getLsbD (i % 64) := by
  rw [uval, add_comm, Nat.testBit_two_pow_mul_add _ (u.limb 0).isLt,
    add_comm, Nat.testBit_two_pow_mul_add _ (u.limb 1).isLt]
  by_cases h0 : i < 64
  · rw [if_pos h0, show i / 64 = 0 by omega, show i % 64 = i by omega]; rfl
  · rw [if_neg h0]
    by_cases h1 : i - 64 < 64
    · rw [if_pos h1, show i / 64 = 1 by omega, show i % 64 = i - 64 by omega]; rfl
    · rw [if_neg h1]
      by_cases h2 : i - 64 - 64 < 64
      · rw [show i / 64 = 2 by omega, show i % 64 = i - 64 - 64 by omega]; rfl
      · rw [limb_of_ge u (show 3 ≤ i / 64 by omega)]
        rw [Nat.testBit_lt_two_pow]
        · simp
        · exact lt_of_lt_of_le (u.limb 2).isLt (Nat.pow_le_pow_right (by decide) (by omega))

theorem normal_bit {u : Uendo} (h : Normal u) {i : ℕ} (hi : 136 ≤ i) :
    (u.limb (i / 64)).getLsbD (i % 64) = false := by
  rw [← uval_bit]
  exact Nat.testBit_lt_two_pow (lt_of_lt_of_le h (Nat.pow_le_pow_right (by decide) hi))

theorem uval_ext {u : Uendo} {m : ℕ}
    (h : ∀ i, (u.limb (i / 64)).getLsbD (i % 64) = m.testBit i) : uval u = m :=
  Nat.eq_of_testBit_eq fun i => by rw [uval_bit, h]

theorem mask_bit (j : ℕ) : NORMALIZATION_MASK.getLsbD j = decide (j < 8) := by
  rw [NORMALIZATION_MASK]
  simp only [BITS, BitVec.getLsbD_ushiftRight, BitVec.getLsbD_allOnes]
  congr 1
  apply propext
  constructor <;> intro h <;> omega

theorem normalized_bit (u : Uendo) (i : ℕ) :
    ((normalized u).limb (i / 64)).getLsbD (i % 64) =
      (decide (i < 136) && (u.limb (i / 64)).getLsbD (i % 64)) := by
  by_cases h : i / 64 < LIMBS
  · have h' : i / 64 < 3 := h
    rw [limb_of_lt _ h, limb_of_lt _ h]
    simp only [normalized]
    by_cases h2 : i / 64 = LIMBS - 1
    · have h2' : i / 64 = 2 := h2
      rw [if_pos h2, BitVec.getLsbD_and, mask_bit, Bool.and_comm,
        show decide (i % 64 < 8) = decide (i < 136) by congr 1; apply propext; omega]
    · have h2' : i / 64 ≠ 2 := h2
      rw [if_neg h2, show decide (i < 136) = true by simp; omega, Bool.true_and]
  · have h' : ¬i / 64 < 3 := h
    rw [limb_of_ge _ (by omega), limb_of_ge u (by omega)]
    simp

/-- C59: normalisation keeps the low 136 bits. -/
theorem C59_normalize (u : Uendo) : uval (normalized u) = uval u % 2 ^ 136 ∧ Normal (normalized u) := by
  have h : uval (normalized u) = uval u % 2 ^ 136 := by
    refine uval_ext fun i => ?_
    rw [normalized_bit, Nat.testBit_mod_two_pow, uval_bit]
  exact ⟨h, by rw [Normal, h]; exact Nat.mod_lt _ (by decide)⟩

/-- C59: sampled values are the low 136 bits of the words drawn. -/
theorem C59_sample (words : Fin LIMBS → BitVec 64) :
    uval (sample words) = uval ⟨words⟩ % 2 ^ 136 ∧ Normal (sample words) := C59_normalize _

/-- C59: bitwise and, and or. -/
theorem C59_bitwise (a b : Uendo) :
    uval (a.and b) = uval a &&& uval b ∧ uval (a.or b) = uval a ||| uval b ∧
    (Normal a → Normal (a.and b)) ∧ (Normal a → Normal b → Normal (a.or b)) := by
  have h1 : uval (a.and b) = uval a &&& uval b := by
    refine uval_ext fun i => ?_
    rw [Nat.testBit_and, uval_bit, uval_bit]
    by_cases h : i / 64 < LIMBS
    · simp [limb_of_lt _ h, Uendo.and]
    · simp [limb, h]
  have h2 : uval (a.or b) = uval a ||| uval b := by
    refine uval_ext fun i => ?_
    rw [Nat.testBit_or, uval_bit, uval_bit]
    by_cases h : i / 64 < LIMBS
    · simp [limb_of_lt _ h, Uendo.or]
    · simp [limb, h]
  refine ⟨h1, h2, fun ha => ?_, fun ha hb => ?_⟩
  · rw [Normal, h1]; exact lt_of_le_of_lt Nat.and_le_left ha
  · rw [Normal, h2]; exact Nat.or_lt_two_pow ha hb

theorem uval_ZERO : uval ZERO = 0 :=
  uval_ext fun i => by
    by_cases h : i / 64 < LIMBS
    · simp [limb_of_lt _ h, ZERO]
    · simp [limb, h]

/-- C59: shifting left by any amount drops the bits that leave the word. -/
theorem C59_shl (u : Uendo) (k : ℕ) : uval (u.shl k) = uval u <<< k % 2 ^ 136 ∧ Normal (u.shl k) := by
  have h : uval (u.shl k) = uval u <<< k % 2 ^ 136 := by
    by_cases hk : k ≥ BITS
    · rw [shl, if_pos hk, uval_ZERO]
      refine Nat.eq_of_testBit_eq fun i => ?_
      rw [Nat.testBit_mod_two_pow, Nat.testBit_shiftLeft]
      have : 136 ≤ k := hk
      by_cases hi : i < 136
      · simp [show ¬k ≤ i by omega]
      · simp [hi]
    · rw [shl, if_neg hk]
      have hk' : k < 136 := by simpa [BITS] using hk
      refine uval_ext fun i => ?_
      rw [normalized_bit, Nat.testBit_mod_two_pow, Nat.testBit_shiftLeft, uval_bit]
      by_cases hi : i < 136
      · congr 1
        have hL : i / 64 < LIMBS := show i / 64 < 3 by omega
        rw [limb_of_lt _ hL]
        by_cases hls : k / 64 ≤ i / 64
        · simp only [if_pos hls]
          by_cases hc : k % 64 > 0 ∧ i / 64 - k / 64 > 0
          · rw [if_pos hc, BitVec.getLsbD_or, BitVec.getLsbD_shiftLeft, BitVec.getLsbD_ushiftRight]
            by_cases hm : i % 64 < k % 64
            · simp only [hm, decide_true, Bool.not_true, Bool.and_false, Bool.false_and,
                Bool.false_or]
              rw [show decide (i ≥ k) = true by simp; omega, Bool.true_and,
                show (i - k) / 64 = i / 64 - k / 64 - 1 by omega,
                show (i - k) % 64 = 64 - k % 64 + i % 64 by omega]
            · rw [BitVec.getLsbD_of_ge _ _ (show 64 ≤ 64 - k % 64 + i % 64 by omega), Bool.or_false]
              rw [show decide (i % 64 < 64) = true by simp; omega, show decide (i % 64 < k % 64) = false by
                simpa using hm, show decide (i ≥ k) = true by simp; omega]
              simp only [Bool.not_false, Bool.true_and]
              rw [show (i - k) / 64 = i / 64 - k / 64 by omega,
                show (i - k) % 64 = i % 64 - k % 64 by omega]
          · rw [if_neg hc, BitVec.getLsbD_shiftLeft]
            by_cases hik : k ≤ i
            · rw [show decide (i % 64 < 64) = true by simp; omega,
                show decide (i % 64 < k % 64) = false by simp; omega,
                show decide (i ≥ k) = true by simpa using hik]
              simp only [Bool.not_false, Bool.true_and]
              rw [show (i - k) / 64 = i / 64 - k / 64 by omega,
                show (i - k) % 64 = i % 64 - k % 64 by omega]
            · rw [show decide (i % 64 < k % 64) = true by simp; omega,
                show decide (i ≥ k) = false by simp; omega]
              simp
        · simp only [if_neg hls]
          rw [show decide (i ≥ k) = false by simp; omega]
          simp
      · simp [hi]
  exact ⟨h, by rw [Normal, h]; exact Nat.mod_lt _ (by decide)⟩

/-- C59: shifting right by any amount. -/
theorem C59_shr (u : Uendo) (hu : Normal u) (k : ℕ) :
    uval (u.shr k) = uval u >>> k ∧ Normal (u.shr k) := by
  have h : uval (u.shr k) = uval u >>> k := by
    by_cases hk : k ≥ BITS
    · rw [shr, if_pos hk, uval_ZERO]
      refine Nat.eq_of_testBit_eq fun i => ?_
      have : 136 ≤ k := hk
      rw [Nat.testBit_shiftRight, uval_bit, normal_bit hu (by omega)]
      simp
    · rw [shr, if_neg hk]
      have hk' : k < 136 := by simpa [BITS] using hk
      refine uval_ext fun i => ?_
      rw [Nat.testBit_shiftRight, uval_bit]
      by_cases hL : i / 64 < LIMBS
      · have hL' : i / 64 < 3 := hL
        rw [limb_of_lt _ hL]
        have hlim : LIMBS = 3 := rfl
        by_cases ht : i / 64 < LIMBS - k / 64
        · simp only [if_pos ht]
          by_cases hm : i % 64 + k % 64 < 64
          · have e1 : (k + i) / 64 = i / 64 + k / 64 := by omega
            have e2 : (k + i) % 64 = k % 64 + i % 64 := by omega
            split_ifs with hc
            · rw [BitVec.getLsbD_or, BitVec.getLsbD_ushiftRight, BitVec.getLsbD_shiftLeft, e1, e2,
                show decide (i % 64 < 64 - k % 64) = true by simp; omega]
              simp
            · rw [BitVec.getLsbD_ushiftRight, e1, e2]
          · have e1 : (k + i) / 64 = i / 64 + k / 64 + 1 := by omega
            have e2 : (k + i) % 64 = i % 64 - (64 - k % 64) := by omega
            split_ifs with hc
            · rw [BitVec.getLsbD_or, BitVec.getLsbD_ushiftRight, BitVec.getLsbD_shiftLeft, e1, e2,
                BitVec.getLsbD_of_ge _ _ (show 64 ≤ k % 64 + i % 64 by omega),
                show decide (i % 64 < 64) = true by simp; omega,
                show decide (i % 64 < 64 - k % 64) = false by simp; omega]
              simp
            · rw [BitVec.getLsbD_ushiftRight, BitVec.getLsbD_of_ge _ _ (by omega), e1,
                limb_of_ge u (by omega)]
              simp
        · simp only [if_neg ht]
          rw [limb_of_ge u (show 3 ≤ (k + i) / 64 by omega)]
          simp
      · have hL' : ¬i / 64 < 3 := hL
        rw [limb_of_ge _ (by omega), limb_of_ge u (by omega)]
        simp
  exact ⟨h, by rw [Normal, h]; exact lt_of_le_of_lt (Nat.shiftRight_le _ _) hu⟩

/-- C59: conversions and constants. -/
theorem C59_conversions (v : BitVec 64) (w : BitVec 128) :
    uval (fromU64 v) = v.toNat ∧ uval (fromU128 w) = w.toNat ∧ uval ZERO = 0 ∧ uval ONE = 1 ∧
    Normal (fromU64 v) ∧ Normal (fromU128 w) := by
  have hL : LIMBS = 3 := rfl
  have h0 : ∀ u : Uendo, u.limb 0 = u.limbs ⟨0, by decide⟩ := fun u => limb_of_lt u (by decide)
  have h1 : ∀ u : Uendo, u.limb 1 = u.limbs ⟨1, by decide⟩ := fun u => limb_of_lt u (by decide)
  have h2 : ∀ u : Uendo, u.limb 2 = u.limbs ⟨2, by decide⟩ := fun u => limb_of_lt u (by decide)
  have a1 : uval (fromU64 v) = v.toNat := by
    simp [uval, h0, h1, h2, fromU64]
  have a2 : uval (fromU128 w) = w.toNat := by
    have := w.isLt
    simp [uval, h0, h1, h2, fromU128]
    omega
  refine ⟨a1, a2, uval_ZERO, by simp [uval, h0, h1, h2, ONE], ?_, ?_⟩
  · rw [Normal, a1]; have := v.isLt; omega
  · rw [Normal, a2]; have := w.isLt; omega

/-- C59: values are equal exactly when the integers are. -/
theorem C59_eq (a b : Uendo) : a.eq b = true ↔ uval a = uval b := by
  rw [Uendo.eq, decide_eq_true_iff]
  constructor
  · intro h; rw [uval, uval, limb, limb]; simp only [limb, h]
  · intro h i
    refine BitVec.eq_of_getLsbD_eq fun j hj => ?_
    have e : (64 * i.val + j) / 64 = i.val := by omega
    have e' : (64 * i.val + j) % 64 = j := by omega
    have := congrArg (fun n => Nat.testBit n (64 * i.val + j)) h
    simp only [uval_bit, e, e', limb_of_lt _ i.isLt] at this
    exact this

example : uval ((fromU64 0xff).shl 130) = 0x3f * 2 ^ 130 := by
  rw [(C59_shl _ _).1, (C59_conversions 0xff 0).1]; decide
example : Normal ((fromU64 0xff).shl 130) := (C59_shl _ _).2
example : ¬Normal ⟨fun _ => BitVec.allOnes 64⟩ := by unfold Normal; decide

end Ragu.Props
