/-
The bytes of points, and reading back what was written.
-/
import Verif.Model.Pasta.Cycle
import Verif.Lemmas.Pasta.Keys

set_option linter.unusedSectionVars false
namespace Ragu.Pasta
open Ragu Ragu.Props

theorem bytes_range (k v : ℕ) : bytesValue ((List.range k).map fun i => UInt8.ofNat (v / 2 ^ (8 * i))) =
    v % 2 ^ (8 * k) := by
  induction k generalizing v with
  | zero => simp [Nat.mod_one, bytesValue]
  | succ k ih =>
    rw [List.range_succ_eq_map, List.map_cons, bytesValue, List.foldr_cons, List.map_map]
    have e : ((fun i => UInt8.ofNat (v / 2 ^ (8 * i))) ∘ Nat.succ) =
        fun i => UInt8.ofNat (v / 256 / 2 ^ (8 * i)) := by
      funext i
      simp only [Function.comp, Nat.div_div_eq_div_mul]
      rw [show 8 * i.succ = 8 + 8 * i by rw [Nat.succ_eq_add_one]; ring, pow_add]
      norm_num
    have hi := ih (v / 256)
    rw [bytesValue] at hi
    rw [e, hi, mul_zero, pow_zero, Nat.div_one]
    have : 2 ^ (8 * (k + 1)) = 256 * 2 ^ (8 * k) := by rw [mul_add, pow_add]; norm_num; ring
    rw [this, Nat.mod_mul]
    simp

theorem reprBytes_length (v : ℕ) : (reprBytes v).length = 32 := by simp [reprBytes]

theorem reprBytes_value {v : ℕ} (h : v < 2 ^ 256) : bytesValue (reprBytes v) = v := by
  rw [reprBytes, bytes_range]
  exact Nat.mod_eq_of_lt h

section
variable {m : ℕ} [Fact m.Prime] {b : ZMod m}

theorem fromRepr_reprBytes (hm : m < 2 ^ 256) (f : ZMod m) : fromRepr m (reprBytes f.val) = some f := by
  have hlt : f.val < m := ZMod.val_lt f
  rw [fromRepr, reprBytes_value (by omega), if_pos hlt, ZMod.natCast_zmod_val]

theorem getPoint_writePoint (hm : m < 2 ^ 256) {P : (curve b).Point} {w : List UInt8}
    (h : writePoint P = some w) (rest : List UInt8) : getPoint (w ++ rest) = some (P, rest) := by
  rcases P with _ | ⟨x, y, hP⟩
  · cases h
  · simp only [writePoint, coordinates, Option.map_some, Option.some.injEq] at h
    subst h
    have l1 := reprBytes_length x.val
    have l2 := reprBytes_length y.val
    have t1 : (reprBytes x.val ++ reprBytes y.val ++ rest).take 32 = reprBytes x.val := by
      rw [List.append_assoc, List.take_append_of_le_length (by omega), List.take_of_length_le (by omega)]
    have t2 : ((reprBytes x.val ++ reprBytes y.val ++ rest).drop 32).take 32 = reprBytes y.val := by
      rw [List.append_assoc, List.drop_append_of_le_length (by omega), List.drop_of_length_le (by omega),
        List.nil_append, List.take_append_of_le_length (by omega), List.take_of_length_le (by omega)]
    have t3 : (reprBytes x.val ++ reprBytes y.val ++ rest).drop 64 = rest := by
      rw [List.drop_append_of_le_length (by simp; omega), List.drop_of_length_le (by simp; omega),
        List.nil_append]
    have hlen : ¬ (reprBytes x.val ++ reprBytes y.val ++ rest).length < 64 := by simp; omega
    rw [getPoint, if_neg hlen, t1, t2, t3, fromRepr_reprBytes hm, fromRepr_reprBytes hm]
    simp only [Option.bind_eq_bind, Option.bind_some, fromXy]
    rw [dif_pos hP]
    rfl

theorem getPoints_writePoints (hm : m < 2 ^ 256) : ∀ {g : List (curve b).Point} {w : List UInt8},
    writePoints g = some w → ∀ rest, getPoints g.length (w ++ rest) = some (g, rest)
  | [], w, h, rest => by
    simp only [writePoints, Option.some.injEq] at h
    subst h
    rfl
  | P :: g, w, h, rest => by
    simp only [writePoints] at h
    obtain ⟨x, h1, h⟩ := Option.bind_eq_some_iff.1 h
    obtain ⟨xs, h2, h⟩ := Option.bind_eq_some_iff.1 h
    rw [Option.some.injEq] at h
    subst h
    rw [List.length_cons, getPoints, List.append_assoc, getPoint_writePoint hm h1]
    simp only [Option.bind_eq_bind, Option.bind_some]
    rw [getPoints_writePoints hm h2]
    rfl

theorem getPointsForCurve_writeParams (hm : m < 2 ^ 256) {g : List (curve b).Point} {h : (curve b).Point}
    {w : List UInt8} (hw : writeParams g h = some w) (rest : List UInt8) :
    getPointsForCurve g.length (w ++ rest) = some ((g, h), rest) := by
  unfold writeParams at hw
  obtain ⟨x, h1, hw⟩ := Option.bind_eq_some_iff.1 hw
  obtain ⟨y, h2, hw⟩ := Option.bind_eq_some_iff.1 hw
  rw [Option.some.injEq] at hw
  subst hw
  rw [getPointsForCurve, List.append_assoc, getPoints_writePoints hm h1]
  simp only [Option.bind_eq_bind, Option.bind_some]
  rw [getPoint_writePoint hm h2]
  rfl

theorem writePoint_some {P : (curve b).Point} (h : P ≠ 0) : ∃ w, writePoint P = some w := by
  rcases P with _ | ⟨x, y, hP⟩
  · exact absurd rfl h
  · exact ⟨_, rfl⟩

theorem writePoints_some : ∀ {g : List (curve b).Point}, (∀ P ∈ g, P ≠ 0) → ∃ w, writePoints g = some w
  | [], _ => ⟨_, rfl⟩
  | P :: g, h => by
    obtain ⟨x, hx⟩ := writePoint_some (h P (by simp))
    obtain ⟨y, hy⟩ := writePoints_some (g := g) fun Q hQ => h Q (by simp [hQ])
    exact ⟨x ++ y, by rw [writePoints, hx, hy]; rfl⟩

end

section
variable {m m' : ℕ} [Fact m.Prime] [Fact m'.Prime] {b : ZMod m} {b' : ZMod m'}

theorem writePoint_length {P : (curve b).Point} {w : List UInt8} (h : writePoint P = some w) :
    w.length = 64 := by
  rcases P with _ | ⟨x, y, hP⟩
  · cases h
  · simp only [writePoint, coordinates, Option.map_some, Option.some.injEq] at h
    subst h
    rw [List.length_append, reprBytes_length, reprBytes_length]

theorem writePoints_length : ∀ {g : List (curve b).Point} {w : List UInt8}, writePoints g = some w →
    w.length = 64 * g.length
  | [], w, h => by
    simp only [writePoints, Option.some.injEq] at h
    subst h
    rfl
  | P :: g, w, h => by
    simp only [writePoints] at h
    obtain ⟨x, h1, h⟩ := Option.bind_eq_some_iff.1 h
    obtain ⟨xs, h2, h⟩ := Option.bind_eq_some_iff.1 h
    rw [Option.some.injEq] at h
    subst h
    rw [List.length_append, writePoint_length h1, writePoints_length h2, List.length_cons]
    ring

theorem writePoints_none : ∀ {g : List (curve b).Point}, (0 : (curve b).Point) ∈ g → writePoints g = none
  | P :: g, h => by
    rcases List.mem_cons.1 h with h | h
    · subst h
      rfl
    · rw [writePoints, writePoints_none h]
      cases writePoint P <;> rfl

theorem writeParams_some {g : List (curve b).Point} {h : (curve b).Point} (hz : ∀ Q ∈ g ++ [h], Q ≠ 0) :
    ∃ w, writeParams g h = some w ∧ w.length = 64 * (g.length + 1) := by
  obtain ⟨x, hx⟩ := writePoints_some (g := g) fun Q hQ => hz Q (by simp [hQ])
  obtain ⟨y, hy⟩ := writePoint_some (hz h (by simp))
  refine ⟨x ++ y, by rw [writeParams, hx, hy]; rfl, ?_⟩
  rw [List.length_append, writePoint_length hy, writePoints_length hx]
  ring

theorem writeParams_none {g : List (curve b).Point} {h : (curve b).Point} (hz : ∃ Q ∈ g ++ [h], Q = 0) :
    writeParams g h = none := by
  obtain ⟨Q, hQ, rfl⟩ := hz
  rcases List.mem_append.1 hQ with hQ | hQ
  · rw [writeParams, writePoints_none hQ]; rfl
  · rw [List.mem_singleton] at hQ
    subst hQ
    rw [writeParams]
    cases writePoints g <;> rfl

theorem baked_bake (hm : m < 2 ^ 256) (hm' : m' < 2 ^ 256) (P : PastaParams (curve b).Point (curve b').Point)
    (h1 : P.pallasG.length = 2 ^ DEFAULT_EP_K) (h2 : P.vestaG.length = 2 ^ DEFAULT_EQ_K) :
    ((∀ Q ∈ P.pallasG ++ [P.pallasH], Q ≠ 0) → (∀ Q ∈ P.vestaG ++ [P.vestaH], Q ≠ 0) →
      ∃ raw, bake P = some raw ∧ raw.length = 64 * (2 ^ DEFAULT_EP_K + 1 + (2 ^ DEFAULT_EQ_K + 1)) ∧
        baked raw = some P) ∧
    ((∃ Q ∈ P.pallasG ++ [P.pallasH], Q = 0) ∨ (∃ Q ∈ P.vestaG ++ [P.vestaH], Q = 0) → bake P = none) := by
  constructor
  · intro hz hz'
    obtain ⟨x, hx, hxl⟩ := writeParams_some hz
    obtain ⟨y, hy, hyl⟩ := writeParams_some hz'
    refine ⟨x ++ y, by rw [bake, hx, hy]; rfl, by rw [List.length_append, hxl, hyl, h1, h2]; ring, ?_⟩
    have r1 := getPointsForCurve_writeParams hm hx y
    have r2 := getPointsForCurve_writeParams hm' hy []
    rw [h1] at r1
    rw [h2, List.append_nil] at r2
    rw [baked, r1]
    simp only [Option.bind_eq_bind, Option.bind_some]
    rw [r2]
    simp
  · rintro (hz | hz)
    · rw [bake, writeParams_none hz]; rfl
    · rw [bake, writeParams_none hz]
      cases writeParams P.pallasG P.pallasH <;> rfl

end

theorem leBytes32_inj {i j : ℕ} (hi : i < 2 ^ 32) (hj : j < 2 ^ 32) (h : leBytes32 i = leBytes32 j) :
    i = j := by
  have := congrArg bytesValue h
  rwa [leBytes32, leBytes32, bytes_range, bytes_range, Nat.mod_eq_of_lt hi, Nat.mod_eq_of_lt hj] at this

end Ragu.Pasta
