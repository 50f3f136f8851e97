import Verif.Model.Msm
import Verif.Lemmas.Sparse
import Mathlib.Algebra.Module.Basic
import Mathlib.Algebra.BigOperators.Module
import Mathlib.Data.Nat.Bitwise
import Mathlib.Tactic.Abel
import Mathlib.Tactic.Module

set_option linter.unusedSectionVars false

namespace Ragu.Msm

theorem lookupLoop_bounds (n : ℕ) : ∀ (ts : List ℕ) (cur : ℕ),
    cur ≤ lookupLoop n cur ts ∧ lookupLoop n cur ts ≤ cur + ts.length
  | [], cur => by simp [lookupLoop]
  | t :: ts, cur => by
    have := lookupLoop_bounds n ts (cur + 1)
    simp only [lookupLoop, List.length_cons]
    split <;> omega

theorem bucketLookup_pos (n : ℕ) : 1 ≤ bucketLookup n := (lookupLoop_bounds n _ 1).1
theorem bucketLookup_le (n : ℕ) : bucketLookup n ≤ 16 := (lookupLoop_bounds n _ 1).2

theorem fromLeBytes_lt : ∀ l : List UInt8, fromLeBytes l < 256 ^ l.length
  | [] => by simp [fromLeBytes]
  | x :: a => by
    have hx := x.toNat_lt
    have := fromLeBytes_lt a
    simp only [fromLeBytes, List.length_cons, pow_succ]
    omega

theorem fromLeBytes_drop : ∀ (k : ℕ) (l : List UInt8),
    fromLeBytes (l.drop k) = fromLeBytes l / 256 ^ k
  | 0, l => by simp
  | k + 1, [] => by simp [fromLeBytes]
  | k + 1, x :: l => by
    have hx := x.toNat_lt
    rw [List.drop_succ_cons, fromLeBytes_drop k l, fromLeBytes, pow_succ, mul_comm (256 ^ k),
      ← Nat.div_div_eq_div_mul]
    congr 1
    omega

theorem fromLeBytes_take : ∀ (k : ℕ) (l : List UInt8),
    fromLeBytes (l.take k) = fromLeBytes l % 256 ^ k
  | 0, l => by simp [fromLeBytes, Nat.mod_one]
  | k + 1, [] => by simp [fromLeBytes]
  | k + 1, x :: l => by
    have hx := x.toNat_lt
    rw [List.take_succ_cons, fromLeBytes, fromLeBytes_take k l, fromLeBytes, pow_succ,
      mul_comm (256 ^ k), Nat.mod_mul]
    have h1 : (x.toNat + 256 * fromLeBytes l) % 256 = x.toNat := by omega
    have h2 : (x.toNat + 256 * fromLeBytes l) / 256 = fromLeBytes l := by omega
    rw [h1, h2]

/-- The digits read by `get_at` are the base-`2^c` digits of the scalar. -/
theorem getAt_eq (segment c : ℕ) (bytes : List UInt8) (hc : c ≤ 16) :
    getAt segment c bytes = fromLeBytes bytes / 2 ^ (segment * c) % 2 ^ c := by
  unfold getAt
  simp only
  rw [Nat.shiftLeft_eq, one_mul]
  have h256 : ∀ k, (256 : ℕ) ^ k = 2 ^ (8 * k) := fun k => by
    rw [pow_mul]; norm_num
  split
  · rename_i h
    have hlt := fromLeBytes_lt bytes
    rw [h256] at hlt
    have hle : 2 ^ (8 * bytes.length) ≤ 2 ^ (segment * c) :=
      Nat.pow_le_pow_right (by norm_num) (by omega)
    rw [Nat.div_eq_of_lt (lt_of_lt_of_le hlt hle)]
    simp
  · rw [fromLeBytes_take, fromLeBytes_drop, h256, h256]
    generalize hs : segment * c = s
    apply Nat.eq_of_testBit_eq
    intro i
    simp only [Nat.testBit_mod_two_pow, Nat.testBit_shiftRight, Nat.testBit_div_two_pow]
    by_cases hi : i < c
    · have e1 : s - s / 8 * 8 + i < 8 * 4 := by omega
      have e2 : 8 * (s / 8) + (s - s / 8 * 8 + i) = s + i := by omega
      simp only [hi, e1, decide_true, Bool.true_and]
      congr 1; omega
    · simp [hi]

theorem getAt_lt (segment c : ℕ) (bytes : List UInt8) : getAt segment c bytes < 2 ^ c := by
  unfold getAt
  simp only
  rw [Nat.shiftLeft_eq, one_mul]
  split
  · positivity
  · exact Nat.mod_lt _ (by positivity)

variable {G : Type*} [AddCommGroup G]

/-- The point held by a bucket. -/
def Bucket.val : Bucket G → G
  | .none => 0
  | .affine a => a
  | .projective a => a

theorem Bucket.add_val (o : G) (b : Bucket G) : b.add o = o + b.val := by
  cases b <;> simp [Bucket.add, Bucket.val]

theorem Bucket.addAssign_val (o : G) (b : Bucket G) : (b.addAssign o).val = b.val + o := by
  cases b <;> simp [Bucket.addAssign, Bucket.val]

/-- The weighted sum of the buckets: the bucket at position `i` counts `k + i` times. -/
def weighted : ℕ → List (Bucket G) → G
  | _, [] => 0
  | k, b :: bs => k • b.val + weighted (k + 1) bs

theorem weighted_modify (o : G) : ∀ (bs : List (Bucket G)) (i k : ℕ), i < bs.length →
    weighted k (bs.modify i (Bucket.addAssign o)) = weighted k bs + (k + i) • o
  | b :: bs, 0, k, _ => by
    simp only [List.modify_zero_cons, weighted, Bucket.addAssign_val, smul_add, add_zero]
    abel
  | b :: bs, i + 1, k, h => by
    rw [List.modify_succ_cons, weighted, weighted, weighted_modify o bs i (k + 1) (by simpa using h)]
    rw [show k + 1 + i = k + (i + 1) by omega]
    abel

theorem weighted_replicate (n k : ℕ) : weighted k (List.replicate n (Bucket.none : Bucket G)) = 0 := by
  induction n generalizing k with
  | zero => rfl
  | succ n ih => simp [List.replicate_succ, weighted, ih, Bucket.val]

theorem fillBuckets_spec (segment c : ℕ) : ∀ (terms : List (List UInt8 × G))
    (bs : List (Bucket G)), bs.length = 2 ^ c - 1 → ∃ bs', fillBuckets segment c terms bs = some bs' ∧
      weighted 1 bs' = weighted 1 bs + (terms.map fun t => getAt segment c t.1 • t.2).sum
  | [], bs, _ => ⟨bs, rfl, by simp⟩
  | (co, base) :: rest, bs, hl => by
    have hlt := getAt_lt segment c co
    simp only [fillBuckets]
    split
    · rename_i h0
      rw [if_pos (by omega)]
      obtain ⟨bs', h1, h2⟩ := fillBuckets_spec segment c rest
        (bs.modify (getAt segment c co - 1) (Bucket.addAssign base)) (by simpa using hl)
      refine ⟨bs', h1, ?_⟩
      rw [h2, weighted_modify _ _ _ _ (by omega), List.map_cons, List.sum_cons,
        show 1 + (getAt segment c co - 1) = getAt segment c co by omega]
      abel
    · rename_i h0
      push Not at h0
      obtain ⟨bs', h1, h2⟩ := fillBuckets_spec segment c rest bs hl
      exact ⟨bs', h1, by rw [h2]; simp [h0]⟩

/-- Sum of the values of the buckets. -/
def total (bs : List (Bucket G)) : G := (bs.map Bucket.val).sum

theorem weighted_succ (k : ℕ) (bs : List (Bucket G)) :
    weighted (k + 1) bs = weighted k bs + total bs := by
  induction bs generalizing k with
  | nil => simp [weighted, total]
  | cons b bs ih =>
    rw [weighted, weighted, ih (k + 1)]
    simp only [total, List.map_cons, List.sum_cons, succ_nsmul]
    abel

theorem sumByParts_spec : ∀ (bs : List (Bucket G)) (running sum : G),
    sumByParts bs running sum = sum + weighted 1 bs.reverse + bs.length • running := by
  have app : ∀ (l : List (Bucket G)) (b : Bucket G) (k : ℕ),
      weighted k (l ++ [b]) = weighted k l + (k + l.length) • b.val := by
    intro l
    induction l with
    | nil => intro b k; simp [weighted]
    | cons x l ih =>
      intro b k
      rw [List.cons_append, weighted, weighted, ih, List.length_cons,
        show k + 1 + l.length = k + (l.length + 1) by omega]
      abel
  intro bs
  induction bs with
  | nil => intro r s; simp [sumByParts, weighted]
  | cons b bs ih =>
    intro r s
    rw [sumByParts, ih, List.reverse_cons, app, List.length_reverse, Bucket.add_val,
      List.length_cons, add_smul 1 bs.length, one_smul, smul_add, succ_nsmul]
    abel

theorem windowSum_spec (segment c : ℕ) (terms : List (List UInt8 × G)) :
    windowSum segment c terms = some ((terms.map fun t => getAt segment c t.1 • t.2).sum) := by
  obtain ⟨bs, h1, h2⟩ := fillBuckets_spec segment c terms (List.replicate (1 <<< c - 1) Bucket.none)
    (by rw [List.length_replicate, Nat.shiftLeft_eq, one_mul])
  rw [windowSum, h1, Option.map_some, sumByParts_spec, List.reverse_reverse, h2,
    weighted_replicate]
  simp

theorem doubleTimes_eq : ∀ (c : ℕ) (a : G), doubleTimes c a = 2 ^ c • a
  | 0, a => by simp [doubleTimes]
  | c + 1, a => by
    rw [doubleTimes, doubleTimes_eq c, ← two_nsmul, smul_smul, pow_succ]

theorem combine_append (c : ℕ) : ∀ (a b : List G) (acc : G),
    combine c (a ++ b) acc = combine c b (combine c a acc)
  | [], b, acc => rfl
  | x :: a, b, acc => by rw [List.cons_append, combine, combine, combine_append c a]

theorem combine_acc (c : ℕ) : ∀ (l : List G) (acc : G),
    combine c l acc = 2 ^ (c * l.length) • acc + combine c l 0
  | [], acc => by simp [combine]
  | x :: l, acc => by
    rw [combine, combine, combine_acc c l, combine_acc c l (doubleTimes c 0 + x), doubleTimes_eq,
      doubleTimes_eq, smul_zero, zero_add, smul_add, smul_smul, ← pow_add, List.length_cons,
      show c * l.length + c = c * (l.length + 1) by ring]
    abel

/-- Reassembling a number from its base-`2^c` digits. -/
theorem digits_sum (v c : ℕ) : ∀ k, v % 2 ^ (k * c) =
    ((List.range k).map fun s => v / 2 ^ (s * c) % 2 ^ c * 2 ^ (c * s)).sum
  | 0 => by simp [Nat.mod_one]
  | k + 1 => by
    rw [List.range_succ, List.map_append, List.sum_append, ← digits_sum v c k]
    simp only [List.map_cons, List.map_nil, List.sum_cons, List.sum_nil, add_zero]
    rw [show (k + 1) * c = k * c + c by ring, pow_add, Nat.mod_mul, mul_comm c k]
    ring

theorem combine_range (c : ℕ) (f : ℕ → G) : ∀ k, combine c ((List.range k).map f).reverse 0 =
    ((List.range k).map fun s => 2 ^ (c * s) • f s).sum
  | 0 => rfl
  | k + 1 => by
    rw [List.range_succ, List.map_append, List.reverse_append, List.map_append, List.sum_append,
      ← combine_range c f k]
    simp only [List.map_cons, List.map_nil, List.reverse_singleton, List.singleton_append,
      List.sum_cons, List.sum_nil, add_zero]
    rw [combine, combine_acc, doubleTimes_eq]
    simp only [smul_zero, zero_add, List.length_reverse, List.length_map, List.length_range]
    abel

theorem mapM_some {α β : Type*} (f : α → β) : ∀ l : List α,
    l.mapM (fun a => some (f a)) = some (l.map f)
  | [] => rfl
  | a :: l => by rw [List.mapM_cons, mapM_some f l]; rfl

theorem sum_swap {α : Type*} (f : ℕ → α → G) (l : List α) : ∀ k,
    ((List.range k).map fun s => (l.map (f s)).sum).sum =
      (l.map fun a => ((List.range k).map fun s => f s a).sum).sum
  | 0 => by simp
  | k + 1 => by
    simp only [List.range_succ, List.map_append, List.sum_append, sum_swap f l k]
    simp [List.sum_map_add]

theorem sum_smul' {α : Type*} (f : α → ℕ) (g : G) : ∀ l : List α,
    (l.map fun a => f a • g).sum = (l.map f).sum • g
  | [] => by simp
  | a :: l => by simp [sum_smul' f g l, add_smul]

theorem smul_sum' {α : Type*} (m : ℕ) (f : α → G) : ∀ l : List α,
    m • (l.map f).sum = (l.map fun a => m • f a).sum
  | [] => by simp
  | a :: l => by simp [← smul_sum' m f l, smul_add]

theorem mul_spec (numBits : ℕ) (coeffs : List (List UInt8)) (bases : List G)
    (h : ∀ b ∈ coeffs, fromLeBytes b < 2 ^ numBits) :
    mul numBits coeffs bases =
      some (((coeffs.zip bases).map fun t => fromLeBytes t.1 • t.2).sum) := by
  unfold mul
  simp only [windowSum_spec, mapM_some]
  have hpos := bucketLookup_pos coeffs.length
  have hle := bucketLookup_le coeffs.length
  generalize bucketLookup coeffs.length = c at hpos hle
  have hseg : numBits ≤ (numBits + c - 1) / c * c := by
    have := Nat.div_add_mod (numBits + c - 1) c
    have := Nat.mod_lt (numBits + c - 1) hpos
    have : c * ((numBits + c - 1) / c) = (numBits + c - 1) / c * c := mul_comm _ _
    omega
  simp only [Option.bind_eq_bind, Option.bind_some, combine_range]
  congr 1
  simp only [smul_sum', sum_swap]
  congr 1
  apply List.map_congr_left
  intro t ht
  have hb : fromLeBytes t.1 < 2 ^ ((numBits + c - 1) / c * c) :=
    lt_of_lt_of_le (h _ (List.of_mem_zip ht).1) (Nat.pow_le_pow_right (by norm_num) hseg)
  have := digits_sum (fromLeBytes t.1) c ((numBits + c - 1) / c)
  rw [Nat.mod_eq_of_lt hb] at this
  conv_rhs => rw [this, ← sum_smul']
  congr 1
  apply List.map_congr_left
  intro s _
  rw [getAt_eq s c _ hle, smul_smul, mul_comm]

end Ragu.Msm

namespace Ragu.Msm
open Finset Spec Ragu.Sparse

variable {F : Type*} [Field F] {G : Type*} [AddCommGroup G] [Module F G]

theorem block_sum (s N : ℕ) (d : List F) (g : List G) (h : s + d.length ≤ N) (hg : N ≤ g.length) :
    ((d.zip ((g.drop s).take d.length)).map fun t => t.1 • t.2).sum =
      ∑ k ∈ range N, blockCoeff (s, d) k • g.getD k 0 := by
  induction d generalizing s with
  | nil => simp
  | cons c d ih =>
    simp only [List.length_cons] at h ⊢
    have hs : s < g.length := by omega
    rw [List.drop_eq_getElem_cons hs, List.take_succ_cons, List.zip_cons_cons, List.map_cons,
      List.sum_cons, ih (s + 1) (by omega)]
    simp only [blockCoeff_cons, add_smul, sum_add_distrib, ite_smul, zero_smul]
    rw [sum_ite_eq' (range N) s, if_pos (mem_range.2 (by omega))]
    simp [List.getD_eq_getElem?_getD, hs]

theorem zip_flatMap_sum (N : ℕ) (g : List G) (hg : N ≤ g.length) : ∀ (p : Poly F) (lo : ℕ),
    WellFormedFrom lo N p →
    (((p.flatMap fun b => b.2).zip (p.flatMap fun b => (g.drop b.1).take b.2.length)).map
      fun t => t.1 • t.2).sum = ∑ k ∈ range N, coeff p k • g.getD k 0
  | [], _, _ => by simp
  | (s, d) :: p, lo, h => by
    obtain ⟨-, -, h3, h4⟩ := h
    rw [List.flatMap_cons, List.flatMap_cons, List.zip_append (by simp; omega), List.map_append,
      List.sum_append, block_sum s N d g h3 hg, zip_flatMap_sum N g hg p _ h4]
    simp [add_smul, sum_add_distrib]

theorem commit_spec (N numBits : ℕ) (repr : F → List UInt8)
    (hval : ∀ a, (fromLeBytes (repr a) : F) = a) (hbits : ∀ a, fromLeBytes (repr a) < 2 ^ numBits)
    (p : Poly F) (g : List G) (hp : WellFormed N p) (hg : N ≤ g.length) :
    commit N numBits repr p g = some (∑ k ∈ range N, coeff p k • g.getD k 0) := by
  rw [commit, if_pos hg, mul_spec]
  · congr 1
    rw [← zip_flatMap_sum N g hg p 0 hp, List.zip_map_left, List.map_map]
    congr 1
    apply List.map_congr_left
    intro t _
    simp only [Function.comp_apply, Prod.map_fst, Prod.map_snd, id_eq]
    rw [← Nat.cast_smul_eq_nsmul F, hval]
  · intro b hb
    obtain ⟨a, -, rfl⟩ := List.mem_map.1 hb
    exact hbits a

end Ragu.Msm
