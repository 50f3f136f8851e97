/-
Properties C04 and C12: multi-scalar multiplication and commitments.
-/
import Verif.Lemmas.Msm
import Verif.Props.Sparse
import Verif.Lemmas.TestField

set_option linter.unusedSectionVars false

namespace Ragu.Props
open Finset Ragu Ragu.Msm Ragu.Sparse Ragu.Spec

/-- The number written by little-endian bytes. -/
def leValue (bytes : List UInt8) : ℕ := ∑ i ∈ range bytes.length, (bytes.getD i 0).toNat * 256 ^ i

theorem fromLeBytes_eq (b : List UInt8) : fromLeBytes b = leValue b := by
  induction b with
  | nil => rfl
  | cons x b ih =>
    rw [fromLeBytes, ih, leValue, leValue, List.length_cons, sum_range_succ', mul_sum]
    simp only [List.getD_cons_zero, pow_zero, mul_one, List.getD_cons_succ, pow_succ]
    rw [add_comm]
    congr 1
    exact sum_congr rfl fun i _ => by ring

section
variable {G : Type*} [AddCommGroup G]

/-- C04: for any number of terms, in any group, the result is the sum of scalar times base; no
bucket index is out of range. Scalars are given by their byte representations, which must fit in
`numBits` bits. If the lists differ in length, the extra entries are ignored. -/
theorem C04_mul (numBits : ℕ) (coeffs : List (List UInt8)) (bases : List G)
    (h : ∀ b ∈ coeffs, leValue b < 2 ^ numBits) :
    mul numBits coeffs bases = some (∑ i ∈ range (min coeffs.length bases.length),
      leValue (coeffs.getD i []) • bases.getD i 0) := by
  rw [mul_spec numBits coeffs bases fun b hb => by rw [fromLeBytes_eq]; exact h b hb]
  congr 1
  clear h
  induction coeffs generalizing bases with
  | nil => simp
  | cons c cs ih =>
    cases bases with
    | nil => simp
    | cons b bs =>
      rw [List.zip_cons_cons, List.map_cons, List.sum_cons, ih, List.length_cons, List.length_cons,
        Nat.succ_min_succ, sum_range_succ', fromLeBytes_eq]
      simp only [List.getD_cons_zero, List.getD_cons_succ]
      rw [add_comm]

/-- C04: the same for scalars of a prime field acting on the group, given the two facts about
`to_repr`: it represents the scalar, in at most `numBits` bits. -/
theorem C04_mul_field {F : Type*} [Field F] [Module F G] (numBits : ℕ) (repr : F → List UInt8)
    (hval : ∀ a, (leValue (repr a) : F) = a) (hbits : ∀ a, leValue (repr a) < 2 ^ numBits)
    (coeffs : List F) (bases : List G) (hl : coeffs.length = bases.length) :
    mul numBits (coeffs.map repr) bases =
      some (∑ i ∈ range coeffs.length, coeffs.getD i 0 • bases.getD i 0) := by
  rw [C04_mul numBits _ _ fun b hb => by
    obtain ⟨a, -, rfl⟩ := List.mem_map.1 hb
    exact hbits a]
  congr 1
  rw [List.length_map, ← hl, min_self]
  refine sum_congr rfl fun i hi => ?_
  have hi := mem_range.1 hi
  rw [← Nat.cast_smul_eq_nsmul F]
  congr 1
  rw [List.getD_eq_getElem?_getD, List.getD_eq_getElem?_getD, List.getElem?_map,
    List.getElem?_eq_getElem hi]
  exact hval _

/-- C04: the bucket width is at most 16 bits, which is what reading four bytes per digit needs,
and at least one. -/
theorem C04_bucket_width (n : ℕ) : 1 ≤ bucketLookup n ∧ bucketLookup n ≤ 16 :=
  ⟨bucketLookup_pos n, bucketLookup_le n⟩

end

section
variable {F : Type*} [Field F] [DecidableEq F] {G : Type*} [AddCommGroup G] [Module F G]

/-- What is assumed about `PrimeField::to_repr`: the bytes are a little-endian representation of
the scalar, in at most `numBits` bits. -/
def ReprOk (numBits : ℕ) (repr : F → List UInt8) : Prop :=
  ∀ a, (leValue (repr a) : F) = a ∧ leValue (repr a) < 2 ^ numBits

/-- C12: the commitment is the sum of every coefficient times its generator. -/
theorem C12_commit (N numBits : ℕ) (repr : F → List UInt8) (hr : ReprOk numBits repr)
    (p : Poly F) (g : List G) (hp : WellFormed N p) (hg : N ≤ g.length) :
    commit N numBits repr p g = some (∑ k ∈ range N, coeff p k • g.getD k 0) :=
  commit_spec N numBits repr (fun a => by rw [fromLeBytes_eq]; exact (hr a).1)
    (fun a => by rw [fromLeBytes_eq]; exact (hr a).2) p g hp hg

/-- C12: committing panics exactly when there are fewer generators than coefficients. -/
theorem C12_commit_panics (N numBits : ℕ) (repr : F → List UInt8) (hr : ReprOk numBits repr)
    (p : Poly F) (g : List G) (hp : WellFormed N p) :
    commit N numBits repr p g = none ↔ g.length < N := by
  constructor
  · intro h
    by_contra hlt
    rw [C12_commit N numBits repr hr p g hp (by omega)] at h
    cases h
  · intro h
    rw [commit, if_neg (by omega)]

/-- C12: two block layouts of the same coefficients have the same commitment. -/
theorem C12_layout (N numBits : ℕ) (repr : F → List UInt8) (hr : ReprOk numBits repr)
    (p q : Poly F) (g : List G) (hp : WellFormed N p) (hq : WellFormed N q)
    (h : ∀ k < N, coeff p k = coeff q k) :
    commit N numBits repr p g = commit N numBits repr q g := by
  by_cases hg : N ≤ g.length
  · rw [C12_commit N numBits repr hr p g hp hg, C12_commit N numBits repr hr q g hq hg]
    congr 1
    exact sum_congr rfl fun k hk => by rw [h k (mem_range.1 hk)]
  · rw [(C12_commit_panics N numBits repr hr p g hp).2 (by omega),
      (C12_commit_panics N numBits repr hr q g hq).2 (by omega)]

/-- C12: commitments are linear, for the arithmetic the polynomial type implements: the
commitment to `s·p + q` is `s` times that to `p` plus that to `q`. -/
theorem C12_linear (N numBits : ℕ) (repr : F → List UInt8) (hr : ReprOk numBits repr)
    (p q : Poly F) (s : F) (g : List G) (hp : WellFormed N p) (hq : WellFormed N q)
    (hg : N ≤ g.length) :
    ∃ t P Q, addAssign N (scale p s) q = some t ∧ commit N numBits repr p g = some P ∧
      commit N numBits repr q g = some Q ∧ commit N numBits repr t g = some (s • P + Q) := by
  obtain ⟨t, h1, h2, h3⟩ := combineAssign_spec N (fun a b => a + b) (by simp) (scale p s) q
    (scale_wf hp s) hq
  refine ⟨t, _, _, h1, C12_commit N numBits repr hr p g hp hg,
    C12_commit N numBits repr hr q g hq hg, ?_⟩
  rw [C12_commit N numBits repr hr t g h2 hg]
  congr 1
  rw [smul_sum, ← sum_add_distrib]
  refine sum_congr rfl fun k _ => ?_
  rw [h3, scale_coeff, add_smul, smul_smul, mul_comm]

/-- C12: along any history of polynomial operations, each register's commitment is that of the
reference dense vector. -/
theorem C12_history (N numBits : ℕ) (repr : F → List UInt8) (hr : ReprOk numBits repr)
    (ops : List (PolyOp F)) (g : List G) (hg : N ≤ g.length) (ps : List (Poly F))
    (h : runHistory N ops = some ps) :
    ∃ ds, ops.foldlM (fun regs op => op.dense N regs) [] = some ds ∧ ds.length = ps.length ∧
      ∀ (i : ℕ) (p : Poly F), ps[i]? = some p → ∃ d : ℕ → F, ds[i]? = some d ∧
        commit N numBits repr p g = some (∑ k ∈ range N, d k • g.getD k 0) := by
  rcases C10_history N ops with ⟨h1, -⟩ | ⟨ps', ds, h1, h2, h3⟩
  · rw [h] at h1; cases h1
  · rw [h] at h1
    cases h1
    refine ⟨ds, h2, h3.1.symm, fun i p hp => ?_⟩
    obtain ⟨h4, h5⟩ := h3.2 i p hp
    exact ⟨_, h5, C12_commit N numBits repr hr p g h4 hg⟩

end

/-! ### Concrete cases -/

/-- The standard representation of `ZMod 97` in one byte. -/
private def repr97 (a : ZMod 97) : List UInt8 := [UInt8.ofNat a.val]

private theorem repr97_ok : ReprOk 7 repr97 := by
  intro a
  have h : a.val < 97 := a.val_lt
  have e : leValue (repr97 a) = a.val := by
    simp [leValue, repr97]; omega
  rw [e]
  exact ⟨ZMod.natCast_zmod_val a, by omega⟩

example : mul 7 [[5], [96], [13], [64]] [1, 2, 3, (7 : ℤ)] = some (5 + 192 + 39 + 448) := by
  decide +kernel

example : ReprOk 7 repr97 ∧ WellFormed 8 [(1, [(3 : ZMod 97), 5]), (6, [9])] :=
  ⟨repr97_ok, by simp [WellFormed, WellFormedFrom]⟩

example : commit 8 7 repr97 [(1, [3, 5]), (6, [9])] [1, 2, 4, 8, 16, 32, 64, (31 : ZMod 97)] =
    some 20 := by decide +kernel

end Ragu.Props
