/-
The endoscaling steps: the partition of the inputs and the Horner sums.
-/
import Verif.Model.Pcd.Endoscale
import Verif.Spec.Endoscale
import Verif.Props.Endoscalar
import Verif.Props.Point

set_option linter.unusedSectionVars false
namespace Ragu.Pcd
open Ragu Ragu.Gadget Ragu.Gadget.Syn Ragu.Spec Ragu.Props Finset WeierstrassCurve.Affine

/-! ### The sums -/

section
variable {R P : Type} [Ring R] [AddCommGroup P] [Module R P]

theorem pointSum_zero (s : R) (pts : List P) : pointSum s pts 0 = pts.getD 0 0 := by
  simp [pointSum]

theorem pointSum_succ (s : R) (pts : List P) (m : ℕ) :
    pointSum s pts (m + 1) = s • pointSum s pts m + pts.getD (m + 1) 0 := by
  rw [pointSum, sum_range_succ, Nat.sub_self, pow_zero, one_smul, pointSum, smul_sum]
  congr 1
  refine sum_congr rfl fun i hi => ?_
  have : i ≤ m := by have := mem_range.1 hi; omega
  rw [smul_smul, ← pow_succ', show m + 1 - i = m - i + 1 by omega]

theorem hornerChunk_append (s : R) : ∀ (l l' : List P) (acc : P),
    hornerChunk s acc (l ++ l') = hornerChunk s (hornerChunk s acc l) l'
  | [], _, _ => rfl
  | x :: l, l', acc => hornerChunk_append s l l' (s • acc + x)

theorem hornerChunk_eq (s : R) (P0 : P) (pts : List P) : ∀ k ≤ pts.length,
    hornerChunk s P0 (pts.take k) = pointSum s (P0 :: pts) k
  | 0, _ => by simp [hornerChunk, pointSum_zero]
  | k + 1, hk => by
    rw [List.take_add_one, hornerChunk_append, hornerChunk_eq s P0 pts k (by omega), pointSum_succ,
      List.getElem?_eq_getElem (by omega)]
    simp only [Option.toList_some, hornerChunk]
    rw [List.getD_eq_getElem?_getD, List.getElem?_cons_succ, List.getElem?_eq_getElem (by omega)]
    rfl

theorem chunks_cons {l : List P} (h : l ≠ []) : Gadget.chunks ENDOSCALINGS_PER_STEP l =
    l.take 4 :: Gadget.chunks ENDOSCALINGS_PER_STEP (l.drop 4) := by
  rw [Gadget.chunks, dif_neg]
  · rfl
  · simpa [ENDOSCALINGS_PER_STEP] using h

theorem chunks_nil : Gadget.chunks ENDOSCALINGS_PER_STEP ([] : List P) = [] := by
  rw [Gadget.chunks, dif_pos]
  simp

theorem hornerChunks_get (s : R) : ∀ (j : ℕ) (pts : List P) (acc : P), 4 * j < pts.length →
    (hornerChunks s acc (Gadget.chunks ENDOSCALINGS_PER_STEP pts))[j]? =
      some (hornerChunk s acc (pts.take (4 * (j + 1))))
  | 0, pts, acc, h => by
    rw [chunks_cons (by rintro rfl; simp at h)]
    rfl
  | j + 1, pts, acc, h => by
    rw [chunks_cons (by rintro rfl; simp at h)]
    simp only [hornerChunks, List.getElem?_cons_succ]
    rw [hornerChunks_get s j _ _ (by simp; omega), ← hornerChunk_append,
      show 4 * (j + 1 + 1) = 4 + 4 * (j + 1) by omega, List.take_add]

theorem hornerChunks_length (s : R) : ∀ (k : ℕ) (pts : List P) (acc : P), pts.length ≤ k →
    (hornerChunks s acc (Gadget.chunks ENDOSCALINGS_PER_STEP pts)).length = (pts.length + 3) / 4
  | 0, pts, acc, h => by
    have : pts = [] := List.length_eq_zero_iff.1 (by omega)
    subst this
    rw [chunks_nil]
    simp [hornerChunks]
  | k + 1, pts, acc, h => by
    by_cases hp : pts = []
    · subst hp
      rw [chunks_nil]
      simp [hornerChunks]
    · have := List.length_pos_iff.2 hp
      rw [chunks_cons hp]
      simp only [hornerChunks, List.length_cons]
      rw [hornerChunks_length s k _ _ (by simp; omega), List.length_drop]
      omega

end

/-! ### The partition -/

theorem numSteps_eq {numPoints : ℕ} (h : 0 < numPoints) :
    numSteps numPoints = some (max ((numPoints - 1 + 3) / 4) 1) := by
  rw [numSteps, if_pos h]
  have e : numPoints - 1 + ENDOSCALINGS_PER_STEP - 1 = numPoints - 1 + 3 := by
    simp only [ENDOSCALINGS_PER_STEP]; omega
  rw [e]
  show some (if (numPoints - 1 + 3) / 4 > 1 then (numPoints - 1 + 3) / 4 else 1) = _
  split_ifs with hs
  · rw [max_eq_left (by omega)]
  · rw [max_eq_right (by omega)]

theorem rangeList_flat (m : ℕ) : ∀ k : ℕ,
    (List.range k).flatMap (fun step => rangeList (step * 4, min (step * 4 + 4) m)) =
      List.range (min (4 * k) m)
  | 0 => by simp
  | k + 1 => by
    rw [List.range_succ, List.flatMap_append, rangeList_flat m k]
    simp only [List.flatMap_singleton, rangeList]
    by_cases h : 4 * k ≤ m
    · rw [min_eq_left h, show min (4 * (k + 1)) m = 4 * k + (min (k * 4 + 4) m - k * 4) by omega,
        List.range_add]
      congr 2
      funext x
      omega
    · rw [show min (k * 4 + 4) m - k * 4 = 0 by omega, show min (4 * (k + 1)) m = min (4 * k) m by omega]
      simp

/-! ### The circuit -/

section
variable {F : Type} [Field F] [DecidableEq F]

/-- What is assumed of the curve group: it has prime order, and the endomorphism acts as a primitive
cube root of unity. -/
structure EndoGroup (b zeta : F) (n : ℕ) (l : ℤ) : Prop where
  prime : n.Prime
  order : ∀ P : (curve b).Point, n • P = 0
  cube : (n : ℤ) ∣ l ^ 2 + l + 1
  endo : ∀ (p : Gadget.Point F) P, Represents b p P → Represents b (p.endo zeta) (l • P)

theorem EndoGroup.point {b zeta : F} {n : ℕ} {l : ℤ} (h : EndoGroup b zeta n l)
    {p : Gadget.Point F} {P : (curve b).Point} (hp : Represents b p P) : EndoPoint b zeta p P n l :=
  ⟨hp, h.prime, h.order P, h.cube, h.endo p P hp⟩

theorem indexSyn_sat {α : Type} (l : List α) (i : ℕ) (r : α) :
    (indexSyn (F := F) l i).sat r ↔ l[i]? = some r := by
  rw [indexSyn]
  rcases l[i]? with _ | a
  · simp [Syn.sat]
  · simp only [Syn.sat, Option.some.injEq]
    exact eq_comm

theorem indexSyn_sim {α : Type} {l : List α} {i : ℕ} {r : α} (h : l[i]? = some r) :
    (indexSyn (F := F) l i).sim = .ok r := by
  rw [indexSyn, h]
  rfl

theorem x_ne_inv {b : F} {p q : Gadget.Point F} {P Q : (curve b).Point} (hp : Represents b p P)
    (hq : Represents b q Q) (h : p.x.wire ≠ q.x.wire) : P ≠ Q ∧ P ≠ -Q := by
  obtain ⟨np, rfl⟩ := hp
  obtain ⟨nq, rfl⟩ := hq
  exact ⟨fun e => h ((Point.X_eq_iff (h₁ := np) (h₂ := nq)).2 (.inl e)),
    fun e => h ((Point.X_eq_iff (h₁ := np) (h₂ := nq)).2 (.inr e))⟩

theorem stepLoop_nz {nbits : ℕ} {zeta : F} {e : Endoscalar F} {inputs : List (Gadget.Point F)} :
    ∀ (is : List ℕ) (acc : Gadget.Point F) (nz : Element F) r,
      (stepLoop nbits zeta e inputs is acc nz).sat r → r.2.wire ≠ 0 → nz.wire ≠ 0
  | [], acc, nz, r, h, hr => by
    simp only [stepLoop, sat_pure] at h
    subst h
    exact hr
  | i :: is, acc, nz, r, h, hr => by
    simp only [stepLoop, sat_bind] at h
    obtain ⟨sc, -, inp, -, ⟨a, z⟩, h3, h4⟩ := h
    have hz := (Gadget.Point.addIncomplete_sat h3).2
    simp only [Option.map_some] at hz
    subst hz
    have := stepLoop_nz is _ _ _ h4 hr
    simp only [Option.getD_some] at this
    exact left_ne_zero_of_mul this

/-- The sums at the indices from `i` on. -/
theorem stepLoop_sat {b zeta : F} (hb : GoodCurve b) {n : ℕ} {l : ℤ} (hG : EndoGroup b zeta n l)
    {nbits : ℕ} (hn : 27 * 2 ^ nbits < n) {e : Endoscalar F} {v : ℕ} (he : HasBits nbits e v)
    {inputs : List (Gadget.Point F)} {pts : List (curve b).Point}
    (hin : ∀ i p, inputs[i]? = some p → Represents b p (pts.getD (i + 1) 0)) :
    ∀ (k i : ℕ) (acc : Gadget.Point F) (nz : Element F) r,
      (stepLoop nbits zeta e inputs ((List.range k).map (i + ·)) acc nz).sat r → r.2.wire ≠ 0 →
      Represents b acc (pointSum (liftNative nbits l v : ℤ) pts i) →
      Represents b r.1 (pointSum (liftNative nbits l v : ℤ) pts (i + k)) ∧
      ∀ j, i ≤ j → j < i + k →
        (liftNative nbits l v : ℤ) • pointSum (liftNative nbits l v : ℤ) pts j ≠ pts.getD (j + 1) 0 ∧
        (liftNative nbits l v : ℤ) • pointSum (liftNative nbits l v : ℤ) pts j ≠ -pts.getD (j + 1) 0
  | 0, i, acc, nz, r, h, hr, ha => by
    simp only [List.range_zero, List.map_nil, stepLoop, sat_pure] at h
    subst h
    exact ⟨ha, fun j h1 h2 => by omega⟩
  | k + 1, i, acc, nz, r, h, hr, ha => by
    have e1 : (List.range (k + 1)).map (i + ·) = i :: (List.range k).map (i + 1 + ·) := by
      rw [List.range_succ_eq_map, List.map_cons, List.map_map]
      congr 1
      refine List.map_congr_left fun x _ => ?_
      simp only [Function.comp_apply]
      omega
    rw [e1] at h
    simp only [stepLoop, sat_bind] at h
    obtain ⟨sc, h1, inp, h2, ⟨a, z⟩, h3, h4⟩ := h
    rw [indexSyn_sat] at h2
    have hsc := (C35_group_scale hb (hG.point ha) nbits hn he).1 sc h1
    have hinp := hin i inp h2
    have hz := (Gadget.Point.addIncomplete_sat h3).2
    simp only [Option.map_some] at hz
    have hz' := stepLoop_nz _ _ _ _ h4 hr
    rw [hz] at hz'
    simp only [Option.getD_some] at hz'
    have hx : sc.x.wire ≠ inp.x.wire := fun hx => by
      rw [hx, sub_self, mul_zero] at hz'
      exact hz' rfl
    have hadd := (C34_add_incomplete hsc hinp hx (some nz)).1 _ h3
    simp only at hadd
    rw [← pointSum_succ] at hadd
    obtain ⟨g1, g2⟩ := stepLoop_sat hb hG hn he hin k (i + 1) _ _ _ h4 hr hadd
    refine ⟨by rw [show i + (k + 1) = i + 1 + k by omega]; exact g1, fun j hj1 hj2 => ?_⟩
    rcases Nat.eq_or_lt_of_le hj1 with rfl | hj
    · exact x_ne_inv hsc hinp hx
    · exact g2 j hj (by omega)

theorem stepLoop_sim {b zeta : F} (hb : GoodCurve b) {n : ℕ} {l : ℤ} (hG : EndoGroup b zeta n l)
    {nbits : ℕ} (hn : 27 * 2 ^ nbits < n) {e : Endoscalar F} (he : HasBits nbits e e.value)
    {inputs : List (Gadget.Point F)} {pts : List (curve b).Point}
    (hin : ∀ i, i < inputs.length → ∃ p, inputs[i]? = some p ∧ p.Honest ∧
      Represents b p (pts.getD (i + 1) 0)) :
    ∀ (k i : ℕ) (acc : Gadget.Point F) (nz : Element F), i + k ≤ inputs.length → acc.Honest →
      nz.Honest → nz.wire ≠ 0 →
      Represents b acc (pointSum (liftNative nbits l e.value : ℤ) pts i) →
      (∀ j, i ≤ j → j < i + k →
        (liftNative nbits l e.value : ℤ) • pointSum (liftNative nbits l e.value : ℤ) pts j ≠
          pts.getD (j + 1) 0 ∧
        (liftNative nbits l e.value : ℤ) • pointSum (liftNative nbits l e.value : ℤ) pts j ≠
          -pts.getD (j + 1) 0) →
      ∃ r, (stepLoop nbits zeta e inputs ((List.range k).map (i + ·)) acc nz).sim = .ok r ∧
        r.1.Honest ∧ r.2.Honest ∧ r.2.wire ≠ 0 ∧
        Represents b r.1 (pointSum (liftNative nbits l e.value : ℤ) pts (i + k))
  | 0, i, acc, nz, _, ha, hz, hz0, hr, _ => ⟨(acc, nz), rfl, ha, hz, hz0, hr⟩
  | k + 1, i, acc, nz, hk, ha, hz, hz0, hr, hne => by
    have e1 : (List.range (k + 1)).map (i + ·) = i :: (List.range k).map (i + 1 + ·) := by
      rw [List.range_succ_eq_map, List.map_cons, List.map_map]
      congr 1
      refine List.map_congr_left fun x _ => ?_
      simp only [Function.comp_apply]
      omega
    obtain ⟨sc, h1, h2, h3⟩ := (C35_group_scale hb (hG.point hr) nbits hn he).2 ha rfl
    obtain ⟨inp, g1, g2, g3⟩ := hin i (by omega)
    have hx := x_ne h3 g3 (hne i le_rfl (by omega)).1 (hne i le_rfl (by omega)).2
    obtain ⟨⟨a, z⟩, f1, f2, f3⟩ := Gadget.Point.addIncomplete_sim (nz := some nz) h2 g2
      (fun x hx => by cases hx; exact hz) hx
    have hsat := Syn.sim_sat f1
    have hzz := (Gadget.Point.addIncomplete_sat hsat).2
    simp only [Option.map_some] at hzz
    have hrep := (C34_add_incomplete h3 g3 hx (some nz)).1 _ hsat
    simp only at hrep
    rw [← pointSum_succ] at hrep
    obtain ⟨r, q1, q2, q3, q4, q5⟩ := stepLoop_sim hb hG hn he hin k (i + 1) a (z.getD nz) (by omega)
      f2 (by rw [hzz]; exact f3 _ hzz) (by
        rw [hzz]
        exact mul_ne_zero hz0 (sub_ne_zero.2 hx.symm)) hrep (fun j h1 h2 => hne j (by omega) (by omega))
    refine ⟨r, ?_, q2, q3, q4, by rw [show i + (k + 1) = i + 1 + k by omega]; exact q5⟩
    rw [e1, stepLoop, sim_bind_ok h1, sim_bind_ok (indexSyn_sim g1), sim_bind_ok f1]
    exact q1

end
end Ragu.Pcd
