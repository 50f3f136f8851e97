/-
Circuit objects implement one polynomial.
-/
import Mathlib.Tactic.Ring
import Mathlib.Tactic.LinearCombination
import Mathlib.Tactic.FieldSimp
import Verif.Spec.Object
import Verif.Props.Util
import Verif.Props.Circuit

set_option linter.unusedSectionVars false

namespace Ragu.Circuit
open Ragu Ragu.Spec Finset
variable {F : Type} [Field F] [DecidableEq F]

/-! ### Compiled circuits -/

theorem circuitObject_ok {n : ℕ} {c : Circ F} {o : CircuitObject F}
    (h : circuitObject n c = .ok o) :
    ∃ m, intoCircuitObject n c = .ok m ∧ o = intoRawCircuitObject n c m := by
  rw [circuitObject] at h
  rcases hm : intoCircuitObject n c with e | m
  · rw [hm] at h; cases h
  · rw [hm] at h
    exact ⟨m, rfl, by cases h; rfl⟩

theorem circuit_implements {n : ℕ} {c : Circ F} (hu : c.WellUsed) {o : CircuitObject F}
    (h : circuitObject n c = .ok o) :
    Implements n o (wiringAt n (floorPlan o.segmentRecords) c) := by
  obtain ⟨m, hm, rfl⟩ := circuitObject_ok h
  obtain ⟨h1, h2, h3⟩ := Props.registered hu hm
  refine ⟨fun x y => ?_, fun x => ?_, fun y => ?_⟩
  · simp only [intoRawCircuitObject, h3, sxyEval_eq hu h1 h2, expect]
  · obtain ⟨p, hp, hw, hv⟩ := sxEval_eq hu h1 h2 x
    exact ⟨p, by simp only [intoRawCircuitObject, h3, hp, expect], hw, by
      simpa only [intoRawCircuitObject, h3] using hv⟩
  · obtain ⟨p, hp, hw, hv⟩ := syEval_eq hu h1 h2 y
    exact ⟨p, by simp only [intoRawCircuitObject, h3, hp, expect], hw, by
      simpa only [intoRawCircuitObject, h3] using hv⟩

/-! ### Masks -/

namespace StageMask

theorem powersUp_eq (p : F) : ∀ (k : ℕ) (cur : F),
    powersUp p k cur = ((List.range k).map fun i => cur * p ^ i, cur * p ^ k)
  | 0, cur => by simp [powersUp]
  | k + 1, cur => by
    rw [powersUp, powersUp_eq p k (cur * p)]
    simp only [List.range_succ_eq_map, List.map_cons, List.map_map]
    refine Prod.ext ?_ ?_
    · simp only [pow_zero, mul_one, List.cons.injEq, true_and]
      exact List.map_congr_left fun i _ => by simp only [Function.comp_apply, pow_succ]; ring
    · simp only [pow_succ]; ring

theorem up_getD (f : ℕ → F) {n j : ℕ} (h : j < n) : ((List.range n).map f).getD j 0 = f j := by
  rw [List.getD_eq_getElem?_getD, List.getElem?_map, List.getElem?_range h]; rfl

theorem down_getD (f : ℕ → F) {n j : ℕ} (h : j < n) :
    ((List.range n).map f).reverse.getD j 0 = f (n - 1 - j) := by
  rw [List.getD_eq_getElem?_getD, List.getElem?_reverse (by simpa using h), List.length_map,
    List.length_range, List.getElem?_map, List.getElem?_range (by omega)]; rfl

/-- A view whose buffers all have length `n`. -/
def Full (n : ℕ) (v : Sparse.View F) : Prop :=
  v.a.length = n ∧ v.b.length = n ∧ v.c.length = n ∧ v.d.length = n

theorem set_getD (l : List F) (j i : ℕ) :
    (l.set j 0).getD i 0 = if i = j then 0 else l.getD i 0 := by
  rw [List.getD_eq_getElem?_getD, List.getElem?_set]
  by_cases h : j = i
  · subst h
    simp only [if_true]
    split <;> rfl
  · rw [if_neg h, if_neg (Ne.symm h), List.getD_eq_getElem?_getD]

theorem zeroGate_eq {n : ℕ} {v : Sparse.View F} (hv : Full n v) {j : ℕ} (hj : j < n) :
    zeroGate v j = some ⟨v.a.set j 0, v.b.set j 0, v.c.set j 0, v.d.set j 0⟩ := by
  obtain ⟨h1, h2, h3, h4⟩ := hv
  simp [zeroGate, zeroAt, h1, h2, h3, h4, hj]

theorem zeroActive_eq {n : ℕ} (skip : ℕ) : ∀ (cnt i : ℕ) (v : Sparse.View F), Full n v →
    skip + i + cnt ≤ n → ∃ v', zeroActive skip cnt i v = some v' ∧ Full n v' ∧ ∀ j,
      v'.a.getD j 0 = (if skip + i ≤ j ∧ j < skip + i + cnt then 0 else v.a.getD j 0) ∧
      v'.b.getD j 0 = (if skip + i ≤ j ∧ j < skip + i + cnt then 0 else v.b.getD j 0) ∧
      v'.c.getD j 0 = (if skip + i ≤ j ∧ j < skip + i + cnt then 0 else v.c.getD j 0) ∧
      v'.d.getD j 0 = (if skip + i ≤ j ∧ j < skip + i + cnt then 0 else v.d.getD j 0)
  | 0, i, v, hv, _ => by
    refine ⟨v, rfl, hv, fun j => ?_⟩
    rw [if_neg (by omega)]; simp
  | cnt + 1, i, v, hv, h => by
    obtain ⟨h1, h2, h3, h4⟩ := hv
    obtain ⟨v', e, hf, hj⟩ := zeroActive_eq skip cnt (i + 1)
      ⟨v.a.set (skip + i) 0, v.b.set (skip + i) 0, v.c.set (skip + i) 0, v.d.set (skip + i) 0⟩
      (show Full n _ from ⟨by simpa using h1, by simpa using h2, by simpa using h3,
        by simpa using h4⟩) (by omega)
    refine ⟨v', ?_, hf, fun j => ?_⟩
    · rw [zeroActive, zeroGate_eq ⟨h1, h2, h3, h4⟩ (show skip + i < n by omega)]; exact e
    · obtain ⟨g1, g2, g3, g4⟩ := hj j
      simp only [set_getD] at g1 g2 g3 g4
      rw [g1, g2, g3, g4]
      by_cases hc : skip + (i + 1) ≤ j ∧ j < skip + (i + 1) + cnt
      · simp only [if_pos hc, if_pos (show skip + i ≤ j ∧ j < skip + i + (cnt + 1) by omega),
          and_self]
      · simp only [if_neg hc]
        by_cases he : j = skip + i
        · simp only [if_pos he, if_pos (show skip + i ≤ j ∧ j < skip + i + (cnt + 1) by omega),
            and_self]
        · simp only [if_neg he, if_neg (show ¬(skip + i ≤ j ∧ j < skip + i + (cnt + 1)) by omega),
            and_self]

/-- The projection has a power of `p` at every masked wire and nothing elsewhere. -/
theorem project_coeffs {n : ℕ} {m : StageMask} (hs : 0 < m.skipGates)
    (hn : m.skipGates + m.numGates ≤ n) (p : F) :
    ∃ q, project n m p = some q ∧ WellFormed (4 * n) q ∧ ∀ j < n, ∀ k : Kind,
      coeff q (wiringExp n j k) =
        if Masked m.skipGates m.numGates j then p ^ wiringExp n j k else 0 := by
  have hn0 : 0 < n := by omega
  set v0 : Sparse.View F :=
    ⟨((List.range n).map fun i => 1 * p ^ n * p ^ i).reverse,
      (List.range n).map fun i => 1 * p ^ n * p ^ n * p ^ i,
      ((List.range n).map fun i => 1 * p ^ n * p ^ n * p ^ n * p ^ i).reverse,
      (List.range n).map fun i => 1 * p ^ i⟩ with hv0
  have hf0 : Full n v0 := by simp [Full, hv0]
  have e1 := zeroGate_eq hf0 hn0
  set v1 : Sparse.View F := ⟨v0.a.set 0 0, v0.b.set 0 0, v0.c.set 0 0, v0.d.set 0 0⟩ with hv1
  have hf1 : Full n v1 := by
    obtain ⟨h1, h2, h3, h4⟩ := hf0
    exact ⟨by simpa [hv1] using h1, by simpa [hv1] using h2, by simpa [hv1] using h3,
      by simpa [hv1] using h4⟩
  obtain ⟨v2, e2, hf2, hj2⟩ := zeroActive_eq (n := n) m.skipGates m.numGates 0 v1 hf1 (by omega)
  obtain ⟨q, hq, hw, hc⟩ := Props.C13_wiring_build n v2 hf2.1.le hf2.2.1.le hf2.2.2.1.le
    hf2.2.2.2.le
  refine ⟨q, ?_, hw, fun j hj k => ?_⟩
  · rw [project]
    simp only [powersUp_eq, powersDown]
    change (zeroGate v0 0).bind _ = _
    rw [e1, Option.bind_some, e2]
    exact hq
  · obtain ⟨c1, c2, c3, c4⟩ := hc j hj
    obtain ⟨g1, g2, g3, g4⟩ := hj2 j
    simp only [Nat.add_zero] at g1 g2 g3 g4
    have hM : ∀ t : F, (if m.skipGates ≤ j ∧ j < m.skipGates + m.numGates then (0 : F) else
        if j = 0 then 0 else t) = if Masked m.skipGates m.numGates j then t else 0 := by
      intro t
      by_cases ha : m.skipGates ≤ j ∧ j < m.skipGates + m.numGates
      · rw [if_pos ha, if_neg (fun h => h.2 ha)]
      · rw [if_neg ha]
        by_cases h0 : j = 0
        · rw [if_pos h0, if_neg (fun h => h.1 h0)]
        · rw [if_neg h0, if_pos ⟨h0, ha⟩]
    cases k
    · rw [wiringExp, c1, g1, hv1]
      simp only [set_getD, hM, hv0, down_getD _ hj]
      congr 1
      rw [one_mul, ← pow_add]; congr 1; omega
    · rw [wiringExp, c2, g2, hv1]
      simp only [set_getD, hM, hv0, up_getD _ hj]
      congr 1
      rw [one_mul, ← pow_add, ← pow_add]; congr 1; omega
    · rw [wiringExp, c3, g3, hv1]
      simp only [set_getD, hM, hv0, down_getD _ hj]
      congr 1
      rw [one_mul, ← pow_add, ← pow_add, ← pow_add]; congr 1; omega
    · rw [wiringExp, c4, g4, hv1]
      simp only [set_getD, hM, hv0, up_getD _ hj]
      congr 1
      rw [one_mul]

theorem project_eval {n : ℕ} {m : StageMask} (hs : 0 < m.skipGates)
    (hn : m.skipGates + m.numGates ≤ n) (p : F) :
    ∃ q, project n m p = some q ∧ WellFormed (4 * n) q ∧ ∀ x,
      Sparse.eval (4 * n) q x = maskAt n m.skipGates m.numGates x p := by
  obtain ⟨q, hq, hw, hc⟩ := project_coeffs hs hn p
  refine ⟨q, hq, hw, fun x => ?_⟩
  rw [Props.C11_eval _ _ hw, sum_four, maskAt, ← sum_add_distrib, ← sum_add_distrib,
    ← sum_add_distrib]
  refine sum_congr rfl fun j hj => ?_
  have hj := mem_range.1 hj
  have ha := hc j hj .a
  have hb := hc j hj .b
  have hcc := hc j hj .c
  have hd := hc j hj .d
  simp only [wiringExp] at ha hb hcc hd ⊢
  rw [ha, hb, hcc, hd]
  split
  · simp only [mul_pow]; ring
  · ring

theorem sum_masked {n skip num : ℕ} (hs : 0 < skip) (hn : skip + num ≤ n) (f : ℕ → F) :
    (∑ j ∈ range n, if Masked skip num j then f j else 0) =
      ∑ j ∈ range n, f j - f 0 - ∑ i ∈ range num, f (skip + i) := by
  have h0 : f 0 = ∑ j ∈ range n, if j = 0 then f j else 0 := by
    rw [sum_ite_eq' (range n) 0, if_pos (mem_range.2 (by omega))]
  have h1 : ∑ i ∈ range num, f (skip + i) =
      ∑ j ∈ range n, if skip ≤ j ∧ j < skip + num then f j else 0 := by
    rw [← sum_filter, ← Nat.add_sub_cancel_left (n := skip) (m := num), ← sum_Ico_eq_sum_range,
      Nat.add_sub_cancel_left]
    refine sum_congr ?_ fun _ _ => rfl
    ext j
    simp only [mem_Ico, mem_filter, mem_range]
    omega
  rw [h1]
  conv_rhs => rw [h0]
  rw [← sum_sub_distrib, ← sum_sub_distrib]
  refine sum_congr rfl fun j _ => ?_
  by_cases h0 : j = 0
  · subst h0
    rw [if_neg (fun h => h.1 rfl), if_pos rfl, if_neg (by omega)]; ring
  · by_cases ha : skip ≤ j ∧ j < skip + num
    · rw [if_neg (fun h => h.2 ha), if_neg h0, if_pos ha]; ring
    · rw [if_pos ⟨h0, ha⟩, if_neg h0, if_neg ha]; ring

theorem sxy_eq {n : ℕ} {m : StageMask} (hs : 0 < m.skipGates)
    (hn : m.skipGates + m.numGates ≤ n) (x y : F) :
    sxy n m x y = maskAt n m.skipGates m.numGates x y := by
  rw [sxy]
  by_cases hz : x = 0 ∨ y = 0
  · rw [if_pos hz, maskAt]
    have hxy : x * y = 0 := by rcases hz with h | h <;> simp [h]
    rw [hxy]
    symm
    refine sum_eq_zero fun j hj => ?_
    have hj := mem_range.1 hj
    split
    · next hM =>
      have := hM.1
      simp only [wiringExp]
      rw [zero_pow (by omega), zero_pow (by omega), zero_pow (by omega), zero_pow (by omega)]
      ring
    · rfl
  · rw [if_neg hz]
    have hu : x * y ≠ 0 := by
      intro h; exact hz (mul_eq_zero.1 h)
    rw [maskAt]
    generalize x * y = u at hu
    simp only
    rw [sum_masked hs hn (fun j => u ^ wiringExp n j .a + u ^ wiringExp n j .b +
      u ^ wiringExp n j .c + u ^ wiringExp n j .d)]
    have e1 : ∑ j ∈ range n, (u ^ wiringExp n j .a + u ^ wiringExp n j .b +
      u ^ wiringExp n j .c + u ^ wiringExp n j .d) = Util.geosum u (n <<< 2) := by
      rw [Props.C03_geosum, Nat.shiftLeft_eq, show n * 2 ^ 2 = 4 * n by ring, sum_four]
      simp only [sum_add_distrib, wiringExp]
      ring
    have hinv : ∀ k, u ^ k * (u⁻¹) ^ k = 1 := fun k => by
      rw [← mul_pow, mul_inv_cancel₀ hu, one_pow]
    have e2 : u ^ wiringExp n 0 .a + u ^ wiringExp n 0 .b + u ^ wiringExp n 0 .c +
        u ^ wiringExp n 0 .d = (u ^ (2 * n) + 1) * (u ^ (2 * n) * u⁻¹ + 1) := by
      have h1 : u ^ (2 * n) * u⁻¹ = u ^ (2 * n - 1) := by
        have : u ^ (2 * n) = u ^ (2 * n - 1) * u := by rw [← pow_succ]; congr 1; omega
        rw [this, mul_assoc, mul_inv_cancel₀ hu, mul_one]
      rw [h1]
      simp only [wiringExp, Nat.sub_zero, Nat.add_zero, pow_zero]
      have : u ^ (4 * n - 1) = u ^ (2 * n) * u ^ (2 * n - 1) := by
        rw [← pow_add]; congr 1; omega
      rw [this]; ring
    have e3 : ∑ i ∈ range m.numGates, (u ^ wiringExp n (m.skipGates + i) .a +
        u ^ wiringExp n (m.skipGates + i) .b + u ^ wiringExp n (m.skipGates + i) .c +
        u ^ wiringExp n (m.skipGates + i) .d) =
        notch u (u ^ (2 * n)) u⁻¹ m.skipGates m.numGates := by
      have h1 : u ^ (2 * n) * u⁻¹ ^ (m.skipGates + m.numGates) =
          u ^ (2 * n - (m.skipGates + m.numGates)) := by
        have : u ^ (2 * n) = u ^ (2 * n - (m.skipGates + m.numGates)) *
            u ^ (m.skipGates + m.numGates) := by rw [← pow_add]; congr 1; omega
        rw [this, mul_assoc, hinv, mul_one]
      rw [notch, Props.C03_geosum, h1]
      simp only [sum_add_distrib, wiringExp]
      have d1 : ∑ i ∈ range m.numGates, u ^ (m.skipGates + i) =
          u ^ m.skipGates * ∑ i ∈ range m.numGates, u ^ i := by
        rw [mul_sum]; exact sum_congr rfl fun i _ => by rw [pow_add]
      have d2 : ∑ i ∈ range m.numGates, u ^ (2 * n + (m.skipGates + i)) =
          u ^ (2 * n) * u ^ m.skipGates * ∑ i ∈ range m.numGates, u ^ i := by
        rw [mul_sum]; exact sum_congr rfl fun i _ => by rw [pow_add, pow_add]; ring
      have d3 : ∑ i ∈ range m.numGates, u ^ (2 * n - 1 - (m.skipGates + i)) =
          u ^ (2 * n - (m.skipGates + m.numGates)) * ∑ i ∈ range m.numGates, u ^ i := by
        rw [mul_sum, ← sum_range_reflect]
        refine sum_congr rfl fun i hi => ?_
        have := mem_range.1 hi
        rw [← pow_add]; congr 1; omega
      have d4 : ∑ i ∈ range m.numGates, u ^ (4 * n - 1 - (m.skipGates + i)) =
          u ^ (2 * n) * u ^ (2 * n - (m.skipGates + m.numGates)) *
            ∑ i ∈ range m.numGates, u ^ i := by
        rw [mul_sum, ← sum_range_reflect]
        refine sum_congr rfl fun i hi => ?_
        have := mem_range.1 hi
        rw [← pow_add, ← pow_add]; congr 1; omega
      rw [d1, d2, d3, d4]
      ring
    rw [e1, e2, e3, global]

end StageMask

theorem mask_implements {n : ℕ} {m : StageMask} (hs : 0 < m.skipGates)
    (hn : m.skipGates + m.numGates ≤ n) :
    Implements n (m.object n : CircuitObject F) (maskAt n m.skipGates m.numGates) := by
  refine ⟨fun x y => ?_, fun x => ?_, fun y => ?_⟩
  · simp only [StageMask.object, StageMask.sxy_eq hs hn]
  · obtain ⟨q, hq, hw, he⟩ := StageMask.project_eval hs hn x
    refine ⟨q, hq, hw, fun y => ?_⟩
    rw [he, maskAt, maskAt, mul_comm]
  · exact StageMask.project_eval hs hn y

/-! ### Stripped objects -/

theorem stripped_implements {n : ℕ} (hn : 0 < n) {o : CircuitObject F} {s : F → F → F}
    (ho : Implements n o s) (h0 : ∀ x, s x 0 = x ^ (2 * n)) :
    Implements n (stripped n o) fun x y => s x y - x ^ (2 * n) := by
  refine ⟨fun x y => ?_, fun x => ?_, fun y => ?_⟩
  · simp only [stripped, ho.sxy, Option.map_some]
  · obtain ⟨p, hp, hw, hv⟩ := ho.sx x
    have hc0 : coeff p 0 = x ^ (2 * n) := by
      have := hv 0
      rw [Props.C11_eval _ _ hw, h0, show 4 * n = 4 * n - 1 + 1 by omega,
        sum_range_succ'] at this
      simpa using this
    have hnext : ((Sparse.iterCoeffs (4 * n) p).next).1 = some (coeff p 0) := by
      have := Props.C09_iter (4 * n) p hw [false]
      have hd : dense (4 * n) p = coeff p 0 :: ((List.range (4 * n - 1)).map (coeff p ·.succ)) := by
        rw [dense, show 4 * n = 4 * n - 1 + 1 by omega, List.range_succ_eq_map]
        simp [List.map_map, Function.comp_def]
      rw [hd] at this
      simpa [Sparse.CoeffIter.run, deque] using this
    obtain ⟨q, hq, hqw, hqc⟩ := Props.C09_from_coeffs (4 * n) [coeff p 0] (by simp; omega)
    obtain ⟨t, ht, htw, htc⟩ := Sparse.combineAssign_spec (4 * n) (fun a b => a - b) (by simp) p q
      hw hqw
    refine ⟨t, ?_, htw, fun y => ?_⟩
    · simp only [stripped, hp, Option.bind_eq_bind, Option.bind_some, hnext, hq]
      exact ht
    · rw [Props.C11_eval _ _ htw, ← hv y, Props.C11_eval _ _ hw]
      simp only [htc, hqc, sub_mul, sum_sub_distrib]
      congr 1
      rw [show 4 * n = 4 * n - 1 + 1 by omega, sum_range_succ']
      simp [hc0]
  · obtain ⟨p, hp, hw, hv⟩ := ho.sy y
    obtain ⟨q, hq, hqw, hqc⟩ := Props.C13_wiring_build (F := F) n ⟨[], [1], [], []⟩ (by simp)
      (by simp; omega) (by simp) (by simp)
    obtain ⟨t, ht, htw, htc⟩ := Sparse.combineAssign_spec (4 * n) (fun a b => a - b) (by simp) p q
      hw hqw
    refine ⟨t, ?_, htw, fun x => ?_⟩
    · simp only [stripped, hp, Option.bind_eq_bind, Option.bind_some, hq]
      exact ht
    · rw [Props.C11_eval _ _ htw, ← hv x, Props.C11_eval _ _ hw]
      simp only [htc, sub_mul, sum_sub_distrib]
      congr 1
      rw [sum_four]
      have z : ∀ j ∈ range n, coeff q j * x ^ j = 0 := fun j hj => by
        rw [(hqc j (mem_range.1 hj)).2.2.2]; simp
      have za : ∀ j ∈ range n, coeff q (2 * n - 1 - j) * x ^ (2 * n - 1 - j) = 0 := fun j hj => by
        rw [(hqc j (mem_range.1 hj)).1]; simp
      have zc : ∀ j ∈ range n, coeff q (4 * n - 1 - j) * x ^ (4 * n - 1 - j) = 0 := fun j hj => by
        rw [(hqc j (mem_range.1 hj)).2.2.1]; simp
      have zb : ∀ j ∈ range n, coeff q (2 * n + j) * x ^ (2 * n + j) =
          if j = 0 then x ^ (2 * n) else 0 := fun j hj => by
        rw [(hqc j (mem_range.1 hj)).2.1]
        cases j <;> simp
      rw [sum_eq_zero z, sum_eq_zero za, sum_eq_zero zc, sum_congr rfl zb,
        sum_ite_eq' (range n) 0, if_pos (mem_range.2 hn)]
      ring

end Ragu.Circuit
