/-
Properties C35 and C36: endoscalar lifting, scaling and extraction.
-/
import Verif.Lemmas.Gadget.Endoscalar
import Verif.Props.Point
import Mathlib.NumberTheory.LegendreSymbol.QuadraticChar.Basic

set_option linter.unusedSectionVars false

namespace Ragu.Props
open Ragu Ragu.Circuit Ragu.Gadget Ragu.Gadget.Syn WeierstrassCurve.Affine
variable {F : Type} [Field F] [DecidableEq F]

/-- The wires of the endoscalar are the `nbits` low bits of `v`, least significant first. -/
def HasBits (nbits : ℕ) (e : Endoscalar F) (v : ℕ) : Prop :=
  e.bits = (List.range nbits).map fun i => if v.testBit i then 1 else 0

theorem HasBits.eq_map {nbits : ℕ} {e : Endoscalar F} {v : ℕ} (h : HasBits nbits e v) :
    e.bits = (bitsFrom v 0 nbits).map fe := by
  rw [h, bitsFrom, List.map_map, List.range_eq_range']
  rfl

/-- C35: every satisfying assignment of `alloc` holds the bits of exactly one number, any number
is possible, and the honest run holds the bits of the given one. -/
theorem C35_alloc (nbits w : ℕ) :
    (∀ e, (Endoscalar.alloc (F := F) nbits w).sat e → ∃ v < 2 ^ nbits, HasBits nbits e v) ∧
    (∀ v, ∃ e, (Endoscalar.alloc (F := F) nbits w).sat e ∧ HasBits nbits e v) ∧
    (∃ e, (Endoscalar.alloc (F := F) nbits w).sim = .ok e ∧ e.value = w ∧ HasBits nbits e w) := by
  refine ⟨fun e h => ?_, fun v => ?_, ?_⟩
  · simp only [Endoscalar.alloc, sat_bind, sat_pure] at h
    obtain ⟨bs, h1, rfl⟩ := h
    obtain ⟨h2, h3⟩ := Endoscalar.allocLoop_sat w _ _ _ h1
    have h4 : bs = (bs.map fun x => decide (x = 1)).map fe := by
      rw [List.map_map]
      conv_lhs => rw [← List.map_id bs]
      refine List.map_congr_left fun x hx => ?_
      rcases h3 x hx with h | h <;> simp [h, fe]
    refine ⟨natOfBits (bs.map fun x => decide (x = 1)), ?_, ?_⟩
    · have := natOfBits_lt (bs.map fun x => decide (x = 1))
      simpa [h2] using this
    · have h5 := natOfBits_bitsFrom (bs.map fun x => decide (x = 1))
      rw [List.length_map, h2] at h5
      unfold HasBits
      simp only
      conv_lhs => rw [h4, ← h5]
      rw [bitsFrom, List.map_map, List.range_eq_range']
      rfl
  · refine ⟨⟨(bitsFrom v 0 nbits).map fe, w⟩, ?_, ?_⟩
    · simp only [Endoscalar.alloc, sat_bind, sat_pure]
      exact ⟨_, Endoscalar.allocLoop_complete w nbits 0 _ (by simp [bitsFrom]), rfl⟩
    · rw [HasBits, bitsFrom, List.map_map, List.range_eq_range']
      rfl
  · refine ⟨⟨(bitsFrom w 0 nbits).map fe, w⟩, ?_, rfl, ?_⟩
    · rw [Endoscalar.alloc, sim_bind_ok (Endoscalar.allocLoop_sim w nbits 0)]; rfl
    · rw [HasBits, bitsFrom, List.map_map, List.range_eq_range']
      rfl

theorem liftBits_take {R : Type} [Ring R] (zeta : R) : ∀ (k : ℕ) (bs : List Bool) (acc : R),
    liftBits zeta k bs acc = liftBits zeta k (bs.take (2 * k)) acc
  | 0, bs, acc => by simp [liftBits]
  | k + 1, [], acc => by simp
  | k + 1, [b], acc => by simp [liftBits, show 2 * (k + 1) = 2 * k + 1 + 1 from by ring]
  | k + 1, n :: e :: rest, acc => by
    rw [show 2 * (k + 1) = 2 * k + 1 + 1 from by ring, List.take_succ_cons, List.take_succ_cons,
      liftBits, liftBits, liftBits_take zeta k rest]

theorem liftNative_eq {R : Type} [Ring R] (nbits : ℕ) (zeta : R) (v : ℕ) :
    liftNative nbits zeta v =
      liftBits zeta (nbits / 2) (bitsFrom v 0 nbits) (zeta + 1 + (zeta + 1)) := by
  rw [liftNative, liftNativeLoop_eq, liftBits_take zeta _ (bitsFrom v 0 nbits)]
  congr 1
  simp only [bitsFrom, ← List.map_take, Nat.mul_zero]
  congr 1
  apply List.ext_getElem
  · simp; omega
  · intro i h1 h2
    simp

theorem toBits_honest {nbits : ℕ} {e : Endoscalar F} (h : HasBits nbits e e.value) :
    ∀ b ∈ e.toBits, b.Honest := by
  intro b hb
  obtain ⟨i, hi, rfl⟩ := List.getElem_of_mem hb
  have hi' : i < e.bits.length := by simpa [Endoscalar.toBits] using hi
  have h1 : e.bits[i] = if e.value.testBit i then 1 else 0 := by
    have hh : e.bits = _ := h
    simp [hh]
  simp only [Endoscalar.toBits, List.getElem_mapIdx, Boolean.Honest, shift_bit, fe, h1]

/-- C35: in-circuit `lift` equals the native `lift_endoscalar` of the number on the wires, in
every satisfying assignment, whatever the witness value says; the honest run succeeds. -/
theorem C35_lift (nbits : ℕ) (zeta : F) {e : Endoscalar F} {v : ℕ} (h : HasBits nbits e v) :
    (∀ r, (e.lift nbits zeta).sat r → r.wire = liftNative nbits zeta v) ∧
    (e.value = v → ∃ r, (e.lift nbits zeta).sim = .ok r ∧ r.Honest ∧
      r.wire = liftNative nbits zeta v) := by
  have key : ∀ r, (e.lift nbits zeta).sat r → r.wire = liftNative nbits zeta v := by
    intro r hr
    simp only [Endoscalar.lift, sat_bind, sat_pure] at hr
    obtain ⟨⟨acc, c⟩, h1, rfl⟩ := hr
    have := Endoscalar.liftLoop_sat zeta _ _ _ _ _ (bitsFrom v 0 nbits)
      (by rw [Endoscalar.toBits_wire]; exact h.eq_map) h1
    simp only [Element.zero_wire, zero_add] at this
    rw [Element.add_wire, Element.constant_wire, this, liftNative_eq]
  refine ⟨key, fun hv => ?_⟩
  subst hv
  have hlen : e.toBits.length = nbits := by
    have : e.bits.length = nbits := by
      have hh : e.bits = _ := h
      simp [hh]
    simpa [Endoscalar.toBits] using this
  obtain ⟨⟨acc, c⟩, h1, h2⟩ := Endoscalar.liftLoop_sim zeta (nbits / 2) e.toBits .zero
    ((zeta + 1) + (zeta + 1)) (by omega) (toBits_honest h) (by simp [Element.Honest])
  refine ⟨_, by rw [Endoscalar.lift, sim_bind_ok h1, sim_pure], ?_, ?_⟩
  · exact Gadget.Point.honest_add h2 (by simp [Element.Honest])
  · exact key _ (Syn.sim_sat (by rw [Endoscalar.lift, sim_bind_ok h1, sim_pure]))

/-! ### Scaling points -/

/-- No short relation: with λ² + λ + 1 = 0 mod a prime `n` that kills `P`, a combination
`a + bλ` with small coefficients kills `P` only if both coefficients are zero. -/
theorem short_relation {M : Type} [AddCommGroup M] {P : M} {n : ℕ} (hn : n.Prime)
    (hP0 : P ≠ 0) (hnP : n • P = 0) {l : ℤ} (hl : (n : ℤ) ∣ l ^ 2 + l + 1) {a b B : ℤ}
    (ha : |a| ≤ B) (hb : |b| ≤ B) (hB : 3 * B ^ 2 < n) (h : (a + b * l) • P = 0) :
    a = 0 ∧ b = 0 := by
  have : Fact n.Prime := ⟨hn⟩
  have ho : addOrderOf P = n := addOrderOf_eq_prime hnP hP0
  have hd : (n : ℤ) ∣ a + b * l := by
    rw [← ho]; exact addOrderOf_dvd_iff_zsmul_eq_zero.2 h
  have hnorm : (n : ℤ) ∣ a ^ 2 - a * b + b ^ 2 := by
    have e : a ^ 2 - a * b + b ^ 2 = (a + b * l) * (a - b - b * l) + b ^ 2 * (l ^ 2 + l + 1) := by
      ring
    rw [e]
    exact dvd_add (Dvd.dvd.mul_right hd _) (Dvd.dvd.mul_left hl _)
  have ha' := abs_le.1 ha
  have hb' := abs_le.1 hb
  have h0 : 0 ≤ a ^ 2 - a * b + b ^ 2 := by nlinarith [sq_nonneg (a - b), sq_nonneg (a + b)]
  have hB2 : a ^ 2 ≤ B ^ 2 := by rw [← sq_abs a]; gcongr
  have hB3 : b ^ 2 ≤ B ^ 2 := by rw [← sq_abs b]; gcongr
  have hlt : a ^ 2 - a * b + b ^ 2 < n := by nlinarith [sq_nonneg (a + b)]
  have hz : a ^ 2 - a * b + b ^ 2 = 0 := Int.eq_zero_of_dvd_of_nonneg_of_lt h0 hlt hnorm
  have h4 : (2 * a - b) ^ 2 + 3 * b ^ 2 = 0 := by linear_combination 4 * hz
  have hb0 : b = 0 := by
    by_contra hne
    have : 0 < b ^ 2 := by positivity
    nlinarith [sq_nonneg (2 * a - b)]
  subst hb0
  refine ⟨?_, rfl⟩
  by_contra hne
  have : 0 < a ^ 2 := by positivity
  nlinarith

/-- What is assumed of a point to scale: it has prime order `n`, and the curve endomorphism
(x, y) ↦ (ζx, y) multiplies it by `l`, a primitive cube root of unity modulo `n`. -/
structure EndoPoint (b zeta : F) (p : Gadget.Point F) (P : (curve b).Point) (n : ℕ) (l : ℤ) :
    Prop where
  repr : Represents b p P
  prime : n.Prime
  order : n • P = 0
  cube : (n : ℤ) ∣ l ^ 2 + l + 1
  endo : Represents b (p.endo zeta) (l • P)

theorem select_sat {p q : Gadget.Point F} {c : Gadget.Boolean F} {w : Bool} (hc : c.wire = fe w)
    (h : (p.conditionalNegate c).sat q) :
    q.x.wire = p.x.wire ∧ q.y.wire = if w then -p.y.wire else p.y.wire := by
  simp only [Gadget.Point.conditionalNegate, sat_bind, Boolean.conditionalSelect_sat,
    exists_eq_left, sat_pure] at h
  subst h
  refine ⟨rfl, ?_⟩
  simp only [hc, Element.negate_wire]
  cases w <;> simp [fe]

theorem bound_step {B : ℤ} {n : ℕ} {k : ℕ} (hB1 : 1 ≤ B) (hB : 27 * (B * 2 ^ (k + 1)) ^ 2 < n) :
    3 * (3 * B) ^ 2 < (n : ℤ) := by
  have h1 : (1 : ℤ) ≤ 2 ^ (k + 1) := one_le_pow₀ (by norm_num)
  have hpow : B ≤ B * 2 ^ (k + 1) := by nlinarith
  have : B ^ 2 ≤ (B * 2 ^ (k + 1)) ^ 2 := by gcongr
  linarith

theorem selected_point {b zeta : F} {p : Gadget.Point F} {P : (curve b).Point} {n : ℕ} {l : ℤ}
    (hp : EndoPoint b zeta p P n l) (wn we : Bool) {q' q : Gadget.Point F}
    (hx' : q'.x.wire = p.x.wire) (hy' : q'.y.wire = if wn then -p.y.wire else p.y.wire)
    {c : Gadget.Boolean F} (hc : c.wire = fe we) (h : (q'.conditionalEndo zeta c).sat q) :
    Represents b q (((if wn then -1 else 1) * (if we then l else 1) : ℤ) • P) := by
  have hy : q.y.wire = if wn then -p.y.wire else p.y.wire := by
    simp only [Gadget.Point.conditionalEndo, sat_bind, sat_pure] at h
    obtain ⟨x, -, rfl⟩ := h
    exact hy'
  have hx : q.x.wire = if we then zeta * p.x.wire else p.x.wire := by
    simp only [Gadget.Point.conditionalEndo, sat_bind, Boolean.conditionalSelect_sat,
      exists_eq_left, sat_pure] at h
    subst h
    simp only [hc, Element.scale_wire, hx', Coeff.value]
    cases we <;> simp [fe, mul_comm]
  obtain ⟨np, rfl⟩ := hp.repr
  obtain ⟨ne, he⟩ := hp.endo
  cases wn <;> cases we <;> simp only [if_true, if_false, Bool.false_eq_true] at hx hy ⊢
  · rw [one_mul, one_zsmul]; exact Represents.of_coords _ hx hy
  · rw [one_mul, he]
    exact Represents.of_coords _ (by rw [hx]; simp [Gadget.Point.endo, Coeff.value, mul_comm]) hy
  · rw [mul_one, neg_one_zsmul, Point.neg_some]
    exact Represents.of_coords _ hx (by rw [hy, negY_curve])
  · rw [neg_one_mul, neg_zsmul, he, Point.neg_some]
    exact Represents.of_coords _ (by rw [hx]; simp [Gadget.Point.endo, Coeff.value, mul_comm])
      (by rw [hy, negY_curve]; rfl)

/-- Two represented multiples of `P` with equal x-coordinates. -/
theorem x_ne {b : F} {p q : Gadget.Point F} {P Q : (curve b).Point} (hp : Represents b p P)
    (hq : Represents b q Q) (h1 : P ≠ Q) (h2 : P ≠ -Q) : p.x.wire ≠ q.x.wire := by
  obtain ⟨np, rfl⟩ := hp
  obtain ⟨nq, rfl⟩ := hq
  intro h
  rcases Point.X_eq_iff (h₁ := np) (h₂ := nq) |>.1 h with h | h
  · exact h1 h
  · exact h2 h

/-- One step of the scaling loop is never degenerate. -/
theorem step_nondegenerate {b zeta : F} {p : Gadget.Point F} {P : (curve b).Point}
    {n : ℕ} {l : ℤ} (hp : EndoPoint b zeta p P n l) {B a c : ℤ}
    (hB : 3 * (3 * B) ^ 2 < n)
    (ha : B + 1 ≤ a ∧ a ≤ 3 * B - 1) (hc : B + 1 ≤ c ∧ c ≤ 3 * B - 1) (wn we : Bool) :
    (a + c * l) • P ≠ ((if wn then -1 else 1) * (if we then l else 1) : ℤ) • P ∧
    (a + c * l) • P ≠ -(((if wn then -1 else 1) * (if we then l else 1) : ℤ) • P) := by
  have hP0 := hp.repr.ne_zero
  have key : ∀ x y : ℤ, |x| ≤ 1 → |y| ≤ 1 → (a + c * l) • P = (x + y * l) • P → False := by
    intro x y hx hy h
    have h' : ((a - x) + (c - y) * l) • P = 0 := by
      have : ((a - x) + (c - y) * l) = (a + c * l) - (x + y * l) := by ring
      rw [this, sub_zsmul, h]
      exact add_neg_cancel _
    have hx' := abs_le.1 hx
    have hy' := abs_le.1 hy
    have := short_relation hp.prime hP0 hp.order hp.cube (B := 3 * B)
      (abs_le.2 ⟨by omega, by omega⟩) (abs_le.2 ⟨by omega, by omega⟩) hB h'
    omega
  constructor
  · intro h
    cases wn <;> cases we <;> simp only [if_true, if_false, Bool.false_eq_true] at h
    · exact key 1 0 (by simp) (by simp) (by rw [h]; ring_nf)
    · exact key 0 1 (by simp) (by simp) (by rw [h]; ring_nf)
    · exact key (-1) 0 (by simp) (by simp) (by rw [h]; ring_nf)
    · exact key 0 (-1) (by simp) (by simp) (by rw [h]; ring_nf)
  · intro h
    rw [← neg_zsmul] at h
    cases wn <;> cases we <;> simp only [if_true, if_false, Bool.false_eq_true] at h
    · exact key (-1) 0 (by simp) (by simp) (by rw [h]; ring_nf)
    · exact key 0 (-1) (by simp) (by simp) (by rw [h]; ring_nf)
    · exact key 1 0 (by simp) (by simp) (by rw [h]; ring_nf)
    · exact key 0 1 (by simp) (by simp) (by rw [h]; ring_nf)

theorem step_coeffs (B a c l : ℤ) (ha : B + 1 ≤ a ∧ a ≤ 3 * B - 1)
    (hc : B + 1 ≤ c ∧ c ≤ 3 * B - 1) (wn we : Bool) :
    ∃ a' c' : ℤ, a' + c' * l = (a + c * l) + (a + c * l) +
        (if wn then -1 else 1) * (if we then l else 1) ∧
      (2 * B + 1 ≤ a' ∧ a' ≤ 3 * (2 * B) - 1) ∧ (2 * B + 1 ≤ c' ∧ c' ≤ 3 * (2 * B) - 1) := by
  cases wn <;> cases we <;> simp only [if_true, if_false, Bool.false_eq_true]
  · exact ⟨2 * a + 1, 2 * c, by ring, by omega, by omega⟩
  · exact ⟨2 * a, 2 * c + 1, by ring, by omega, by omega⟩
  · exact ⟨2 * a - 1, 2 * c, by ring, by omega, by omega⟩
  · exact ⟨2 * a, 2 * c - 1, by ring, by omega, by omega⟩

theorem groupLoop_sat {b zeta : F} (hb : GoodCurve b) {p : Gadget.Point F} {P : (curve b).Point}
    {n : ℕ} {l : ℤ} (hp : EndoPoint b zeta p P n l) :
    ∀ (k : ℕ) (bs : List (Gadget.Boolean F)) (w : List Bool) (acc r : Gadget.Point F)
      (B a c : ℤ), bs.map (·.wire) = w.map fe → 1 ≤ B → 27 * (B * 2 ^ k) ^ 2 < n →
      (B + 1 ≤ a ∧ a ≤ 3 * B - 1) → (B + 1 ≤ c ∧ c ≤ 3 * B - 1) →
      Represents b acc ((a + c * l) • P) →
      (Endoscalar.groupLoop zeta p k bs acc).sat r →
      Represents b r (liftBits l k w (a + c * l) • P)
  | 0, bs, w, acc, r, B, a, c, _, _, _, _, _, hacc, h => by
    simp only [Endoscalar.groupLoop, sat_pure] at h
    subst h
    simpa [liftBits] using hacc
  | k + 1, [], w, acc, r, B, a, c, _, _, _, _, _, hacc, h => h.elim
  | k + 1, [_], w, acc, r, B, a, c, _, _, _, _, _, hacc, h => h.elim
  | k + 1, nb :: eb :: rest, w, acc, r, B, a, c, hw, hB1, hB, ha, hc, hacc, h => by
    match w, hw with
    | [_], hw => simp at hw
    | wn :: we :: w, hw =>
      simp only [List.map_cons, List.cons.injEq] at hw
      simp only [Endoscalar.groupLoop, sat_bind] at h
      obtain ⟨q1, h1, q, h2, acc', h3, h4⟩ := h
      have hq := selected_point hp wn we (select_sat hw.1 h1).1 (select_sat hw.1 h1).2 hw.2.1 h2
      have hBn := bound_step hB1 hB
      obtain ⟨d1, d2⟩ := step_nondegenerate hp hBn ha hc wn we
      have hacc' := (C34_double_and_add hb hacc hq (x_ne hacc hq d1 d2)).1 acc' h3
      obtain ⟨a', c', e1, ha', hc'⟩ := step_coeffs B a c l ha hc wn we
      rw [← add_zsmul, ← add_zsmul, ← e1] at hacc'
      rw [liftBits, ← e1]
      exact groupLoop_sat hb hp k rest w acc' r (2 * B) a' c' hw.2.2 (by omega)
        (by rw [pow_succ] at hB; convert hB using 2; ring) ha' hc' hacc' h4

theorem groupLoop_sim {b zeta : F} (hb : GoodCurve b) {p : Gadget.Point F} {P : (curve b).Point}
    {n : ℕ} {l : ℤ} (hp : EndoPoint b zeta p P n l) (hph : p.Honest) :
    ∀ (k : ℕ) (bs : List (Gadget.Boolean F)) (acc : Gadget.Point F)
      (B a c : ℤ), 2 * k ≤ bs.length → (∀ x ∈ bs, x.Honest) → 1 ≤ B →
      27 * (B * 2 ^ k) ^ 2 < n →
      (B + 1 ≤ a ∧ a ≤ 3 * B - 1) → (B + 1 ≤ c ∧ c ≤ 3 * B - 1) →
      Represents b acc ((a + c * l) • P) → acc.Honest →
      ∃ r, (Endoscalar.groupLoop zeta p k bs acc).sim = .ok r ∧ r.Honest
  | 0, bs, acc, B, a, c, _, _, _, _, _, _, _, h => ⟨_, rfl, h⟩
  | k + 1, [], acc, B, a, c, hlen, _, _, _, _, _, _, h => by simp at hlen
  | k + 1, [_], acc, B, a, c, hlen, _, _, _, _, _, _, h => by simp at hlen; omega
  | k + 1, nb :: eb :: rest, acc, B, a, c, hlen, hbs, hB1, hB, ha, hc, hacc, hah => by
    have hnb : fe nb.value = nb.wire := hbs nb (by simp)
    have heb : fe eb.value = eb.wire := hbs eb (by simp)
    have hy := Boolean.conditionalSelect_sim (s := nb) (hbs nb (by simp)) hph.2
      (Gadget.Point.honest_negate hph.2)
    have hx := Boolean.conditionalSelect_sim (s := eb) (hbs eb (by simp)) hph.1
      (Gadget.Point.honest_scale hph.1 (.arbitrary zeta))
    have h1 : ∃ q1, (p.conditionalNegate nb).sim = .ok q1 ∧ q1.x = p.x ∧ q1.Honest := by
      obtain ⟨y, hy, hyh⟩ : ∃ y, (nb.conditionalSelect p.y p.y.negate).sim = .ok y ∧ y.Honest :=
        ⟨_, hy, show Element.Honest _ from rfl⟩
      exact ⟨⟨p.x, y⟩, by rw [Gadget.Point.conditionalNegate, sim_bind_ok hy]; rfl, rfl,
        hph.1, hyh⟩
    obtain ⟨q1, h1, h1x, h1h⟩ := h1
    have h2 : ∃ q, (q1.conditionalEndo zeta eb).sim = .ok q ∧ q.Honest := by
      rw [← h1x] at hx
      obtain ⟨x, hx, hxh⟩ : ∃ x, (eb.conditionalSelect q1.x
          (q1.x.scale (.arbitrary zeta))).sim = .ok x ∧ x.Honest :=
        ⟨_, hx, show Element.Honest _ from rfl⟩
      exact ⟨⟨x, q1.y⟩, by rw [Gadget.Point.conditionalEndo, sim_bind_ok hx]; rfl, hxh, h1h.2⟩
    obtain ⟨q, h2, h2h⟩ := h2
    have hs1 := select_sat hnb.symm (Syn.sim_sat h1)
    have hq := selected_point hp nb.value eb.value hs1.1 hs1.2 heb.symm (Syn.sim_sat h2)
    have hBn := bound_step hB1 hB
    obtain ⟨d1, d2⟩ := step_nondegenerate hp hBn ha hc nb.value eb.value
    obtain ⟨a', c', e1, ha', hc'⟩ := step_coeffs B a c l ha hc nb.value eb.value
    have hBn' : 3 * (3 * (2 * B)) ^ 2 < (n : ℤ) := by
      have h2k : (1 : ℤ) ≤ 2 ^ k := one_le_pow₀ (by norm_num)
      have : (2 * B) ^ 2 ≤ (B * 2 ^ (k + 1)) ^ 2 := by
        have h3 : 2 * B ≤ B * 2 ^ (k + 1) := by rw [pow_succ]; nlinarith
        exact pow_le_pow_left₀ (by omega) h3 2
      nlinarith
    have hne : (a + c * l) • P + (a + c * l) • P +
        ((if nb.value then -1 else 1) * (if eb.value then l else 1) : ℤ) • P ≠ 0 := by
      rw [← add_zsmul, ← add_zsmul, ← e1]
      intro h0
      have := short_relation hp.prime hp.repr.ne_zero hp.order hp.cube (B := 3 * (2 * B))
        (abs_le.2 ⟨by omega, by omega⟩) (abs_le.2 ⟨by omega, by omega⟩) hBn' h0
      omega
    obtain ⟨acc', h3, h3h, h3r⟩ :=
      (C34_double_and_add hb hacc hq (x_ne hacc hq d1 d2)).2 hah h2h hne
    rw [← add_zsmul, ← add_zsmul, ← e1] at h3r
    obtain ⟨r, h4, h4h⟩ := groupLoop_sim hb hp hph k rest acc' (2 * B) a' c'
      (by simp at hlen; omega) (fun x hx => hbs x (by simp [hx])) (by omega)
      (by rw [pow_succ] at hB; convert hB using 2; ring) ha' hc' h3r h3h
    refine ⟨r, ?_, h4h⟩
    rw [Endoscalar.groupLoop, sim_bind_ok h1, sim_bind_ok h2, sim_bind_ok h3, h4]

/-- C35: `group_scale` multiplies the point by the lifted scalar, for every assignment of the
bits and with no degenerate case, provided the order of the point exceeds `27 · 2^nbits` (for the
128-bit endoscalars and 254-bit orders in use this holds with a wide margin); and the honest
prover always succeeds. -/
theorem C35_group_scale {b zeta : F} (hb : GoodCurve b) {p : Gadget.Point F}
    {P : (curve b).Point} {n : ℕ} {l : ℤ} (hp : EndoPoint b zeta p P n l) (nbits : ℕ)
    (hn : 27 * 2 ^ nbits < n) {e : Endoscalar F} {v : ℕ} (he : HasBits nbits e v) :
    (∀ r, (e.groupScale nbits zeta p).sat r →
      Represents b r ((liftNative nbits l v : ℤ) • P)) ∧
    (p.Honest → e.value = v → ∃ r, (e.groupScale nbits zeta p).sim = .ok r ∧ r.Honest ∧
      Represents b r ((liftNative nbits l v : ℤ) • P)) := by
  have hP0 := hp.repr.ne_zero
  have h27 : (27 : ℤ) < n := by
    have : 1 ≤ 2 ^ nbits := Nat.one_le_two_pow
    exact_mod_cast lt_of_le_of_lt (by omega : 27 ≤ 27 * 2 ^ nbits) hn
  have hB : 27 * ((1 : ℤ) * 2 ^ (nbits / 2)) ^ 2 < n := by
    rw [one_mul, ← pow_mul]
    have h1 : (2 : ℤ) ^ (nbits / 2 * 2) ≤ 2 ^ nbits := by
      gcongr
      · norm_num
      · omega
    have h2 : (27 : ℤ) * 2 ^ nbits < n := by exact_mod_cast hn
    linarith
  have hxne : (p.endo zeta).x.wire ≠ p.x.wire := by
    refine x_ne hp.endo hp.repr ?_ ?_
    · intro h
      have : ((-1) + 1 * l) • P = 0 := by
        rw [add_zsmul, one_mul, h, neg_one_zsmul]; exact neg_add_cancel P
      have := short_relation hp.prime hP0 hp.order hp.cube (B := 2) (by simp) (by simp)
        (by linarith) this
      omega
    · intro h
      have : (1 + 1 * l) • P = 0 := by
        rw [add_zsmul, one_mul, h, one_zsmul]; exact add_neg_cancel P
      have := short_relation hp.prime hP0 hp.order hp.cube (B := 2) (by simp) (by simp)
        (by linarith) this
      omega
  have hadd := C34_add_incomplete hp.endo hp.repr hxne none
  have hrw : l • P + P + (l • P + P) = (2 + 2 * l) • P := by
    rw [show (2 + 2 * l) = (l + 1) + (l + 1) from by ring, add_zsmul, add_zsmul, one_zsmul]
  have key : ∀ r, (e.groupScale nbits zeta p).sat r →
      Represents b r ((liftNative nbits l v : ℤ) • P) := by
    intro r hr
    simp only [Endoscalar.groupScale, sat_bind] at hr
    obtain ⟨⟨sum, nz⟩, h1, acc, h2, h3⟩ := hr
    have hsum := hadd.1 _ h1
    have hacc := (C34_double hb hsum).1 acc h2
    rw [hrw] at hacc
    have := groupLoop_sat hb hp (nbits / 2) e.toBits (bitsFrom v 0 nbits) acc r 1 2 2
      (by rw [Endoscalar.toBits_wire]; exact he.eq_map) le_rfl hB (by norm_num) (by norm_num)
      hacc h3
    rw [liftNative_eq]
    convert this using 3
    ring
  refine ⟨key, fun hph hv => ?_⟩
  have heh : (p.endo zeta).Honest := ⟨Gadget.Point.honest_scale hph.1 _, hph.2⟩
  obtain ⟨⟨sum, nz⟩, h1, h1h, h1r⟩ := hadd.2 heh hph (by simp)
  obtain ⟨acc, h2, h2h, h2r⟩ := (C34_double hb h1r).2 h1h (by
    rw [hrw]
    intro h
    have := short_relation hp.prime hP0 hp.order hp.cube (B := 2) (by simp) (by simp)
      (by linarith) h
    omega)
  rw [hrw] at h2r
  have hlen : e.toBits.length = nbits := by
    have : e.bits.length = nbits := by
      have hh : e.bits = _ := he
      simp [hh]
    simpa [Endoscalar.toBits] using this
  obtain ⟨r, h3, h3h⟩ := groupLoop_sim hb hp hph (nbits / 2) e.toBits acc 1 2 2 (by omega)
    (toBits_honest (by rwa [hv])) le_rfl hB (by norm_num) (by norm_num) h2r h2h
  have hok : (e.groupScale nbits zeta p).sim = .ok r := by
    rw [Endoscalar.groupScale, sim_bind_ok h1]
    simp only
    rw [sim_bind_ok h2, h3]
  exact ⟨r, hok, h3h, key r (Syn.sim_sat hok)⟩

/-- C35: the lifted scalar may be computed natively in any ring acting on the points, e.g. the
scalar field: lifting commutes with ring homomorphisms. -/
theorem C35_lift_scalar_field {R S : Type} [Ring R] [Ring S] (f : R →+* S) (nbits : ℕ) (zeta : R)
    (v : ℕ) : f (liftNative nbits zeta v) = liftNative nbits (f zeta) v :=
  liftNative_map f nbits zeta v

/-- C36: in every satisfying assignment of `extract`, bit i is 1 exactly when element + i is a
square, whenever element + i is not zero. `gen` stands for the multiplicative generator, which is
not a square. -/
theorem C36_extract (nbits : ℕ) (sqrt : F → Option F) {gen : F} (hgen : ¬ IsSquare gen)
    (elem : Element F) (e : Endoscalar F)
    (h : (Endoscalar.extract nbits sqrt gen elem).sat e) :
    e.bits.length = nbits ∧ ∀ i (hi : i < e.bits.length), (e.bits[i] = 0 ∨ e.bits[i] = 1) ∧
      (elem.wire + i ≠ 0 → (e.bits[i] = 1 ↔ IsSquare (elem.wire + (i : F)))) := by
  simp only [Endoscalar.extract, sat_bind, sat_pure] at h
  obtain ⟨r, hr, rfl⟩ := h
  obtain ⟨h1, h2⟩ := Endoscalar.extractLoop_sat sqrt gen elem nbits 0 0 0 0 0 r (by simp)
    (by simp) hr
  refine ⟨h1, fun i hi => ?_⟩
  obtain ⟨hb, s, hs⟩ := h2 i hi
  rw [add_zero] at hs
  refine ⟨hb, fun hne => ?_⟩
  rcases hb with hb | hb
  · rw [hb] at hs
    simp only [hb, zero_ne_one, false_iff]
    rintro ⟨t, ht⟩
    have ht0 : t ≠ 0 := by
      rintro rfl
      exact hne (by rw [ht, mul_zero])
    refine hgen ⟨s / t, ?_⟩
    field_simp
    linear_combination -hs - gen * ht
  · rw [hb] at hs
    simp only [hb, true_iff]
    exact ⟨s, by linear_combination -hs⟩

/-- C36, the exception: when element + i is zero, either bit satisfies the constraints, so a
malicious prover can choose it. (The honest prover sets it.) -/
theorem C36_extract_zero_free (sqrt : F → Option F) (gen : F) (x : F) (bit : Bool) :
    ∃ e, (Endoscalar.extract 1 sqrt gen ⟨0, x⟩).sat e ∧ e.bits = [if bit then 1 else 0] := by
  suffices h : ∃ v, (Endoscalar.extractLoop sqrt gen ⟨0, x⟩ 0 1 0 0 0 0).sat ([fe bit], v) by
    obtain ⟨v, hv⟩ := h
    refine ⟨⟨[fe bit], v⟩, ?_, by cases bit <;> rfl⟩
    simp only [Endoscalar.extract, sat_bind, sat_pure]
    exact ⟨([fe bit], v), hv, rfl⟩
  simp only [Endoscalar.extractLoop, sat_bind, sat_pure, Boolean.alloc_sat,
    Element.allocSquare_sat, Element.mul_sat, exists_eq_left, enforceZero_sat, exists_const]
  refine ⟨_, (), (by rfl), ⟨fe bit, _⟩, ⟨rfl, ?_⟩, (⟨0, _⟩, ⟨0 * 0, _⟩), ⟨rfl, rfl⟩, ?_, rfl⟩
  · cases bit <;> simp [fe]
  · simp [lin_eq, lcVal, LcStep.sub, Coeff.value]

/-- What the square-root routine is trusted to do. -/
structure SqrtSpec (sqrt : F → Option F) : Prop where
  sound : ∀ v s, sqrt v = some s → s * s = v
  complete : ∀ v, IsSquare v → sqrt v ≠ none

theorem isSquare_mul_of_not [Finite F] {a b : F} (ha : ¬ IsSquare a) (hb : ¬ IsSquare b) :
    IsSquare (a * b) := by
  classical
  have := Fintype.ofFinite F
  have hF : ringChar F ≠ 2 := fun h => ha (FiniteField.isSquare_of_char_two h a)
  have ha0 : a ≠ 0 := by rintro rfl; exact ha (IsSquare.zero)
  have hb0 : b ≠ 0 := by rintro rfl; exact hb (IsSquare.zero)
  rw [← quadraticChar_one_iff_isSquare (mul_ne_zero ha0 hb0), map_mul,
    quadraticChar_neg_one_iff_not_isSquare.2 ha, quadraticChar_neg_one_iff_not_isSquare.2 hb]
  norm_num

open Classical in
theorem extractWitness_some [Finite F] {sqrt : F → Option F} (hs : SqrtSpec sqrt) {gen : F}
    (hgen : ¬ IsSquare gen) (v : F) :
    ∃ s, Endoscalar.extractWitness sqrt gen v = some (s, decide (IsSquare v)) := by
  unfold Endoscalar.extractWitness
  cases h : sqrt v with
  | some s => exact ⟨s, by simp [show IsSquare v from ⟨s, (hs.sound _ _ h).symm⟩]⟩
  | none =>
    have hv : ¬ IsSquare v := fun h' => hs.complete v h' h
    cases h2 : sqrt (v * gen) with
    | some s => exact ⟨s, by simp [hv]⟩
    | none => exact absurd h2 (hs.complete _ (isSquare_mul_of_not hv hgen))

open Classical in
/-- C36: native extraction never panics and its bit i is 1 exactly when element + i is a square
(zero counted as a square); the honest in-circuit run succeeds and holds exactly those bits. -/
theorem C36_native [Finite F] (nbits : ℕ) {sqrt : F → Option F} (hs : SqrtSpec sqrt) {gen : F}
    (hgen : ¬ IsSquare gen) (elem : Element F) (he : elem.Honest) :
    ∃ v, extractNative nbits sqrt gen elem.value = some v ∧ v < 2 ^ nbits ∧
      (∀ i < nbits, v.testBit i = true ↔ IsSquare (elem.value + (i : F))) ∧
      ∃ e, (Endoscalar.extract nbits sqrt gen elem).sim = .ok e ∧ e.value = v ∧
        HasBits nbits e v := by
  have hwit := fun j : ℕ => extractWitness_some hs hgen (elem.wire + 0 + (j : F))
  obtain ⟨bs, v, h1, h2, h3, h4⟩ := Endoscalar.extractLoop_sim (gen := gen) he hs.sound nbits 0 0
    0 0 0 (by simp) (by simp) (fun j _ => ⟨_, (hwit j).choose_spec⟩)
  obtain ⟨h5, -, h6⟩ := Endoscalar.extractNativeLoop_bits nbits 0 0 0 v (by norm_num) h2
  have hbit : ∀ i < nbits, v.testBit i = decide (IsSquare (elem.wire + (i : F))) := by
    intro i hi
    obtain ⟨s, hs'⟩ := h6 i hi
    obtain ⟨s2, hs2⟩ := hwit i
    rw [hs2] at hs'
    simp only [Option.some.injEq, Prod.mk.injEq, zero_add, add_zero] at hs'
    exact hs'.2.symm
  have hval : elem.value = elem.wire := he
  refine ⟨v, by rw [hval]; exact h2, by simpa using h5, fun i hi => ?_, ⟨bs, v⟩, ?_, rfl, ?_⟩
  · rw [hbit i hi, hval, decide_eq_true_iff]
  · rw [Endoscalar.extract, sim_bind_ok h1]; rfl
  · unfold HasBits
    apply List.ext_getElem
    · simp [h3]
    · intro i hi1 hi2
      obtain ⟨s, hs'⟩ := h6 i (by simpa using hi2)
      have := h4 i (by simpa using hi2) _ _ hs'
      rw [List.getElem?_eq_getElem hi1] at this
      simp only [Option.some.injEq, zero_add] at this
      simp [this, fe]

/-! Concrete cases. The curve y² = x³ + 11 over F_109 has prime order 127; ζ = 63 and λ = 19. -/

section Toy
local notation "K" => ZMod 109

private def pt (x y : K) : Gadget.Point K := ⟨⟨x, x⟩, ⟨y, y⟩⟩

private theorem good11 : GoodCurve (11 : K) := ⟨by decide, by decide, by decide⟩

private theorem dbl {x y x' y' : K} {P : (curve (11 : K)).Point} {m : ℕ}
    (h : Represents 11 (pt x y) (m • P)) (hd : (pt x y).double.sim = .ok (pt x' y')) :
    Represents 11 (pt x' y') ((2 * m) • P) := by
  have := (C34_double good11 h).1 _ (Syn.sim_sat hd)
  rwa [← add_nsmul, ← two_mul] at this

private theorem toy : ∃ P, EndoPoint (11 : K) 63 (pt 1 11) P 127 19 := by
  have h1 : Represents (11 : K) (pt 1 11)
      ((1 : ℕ) • (.some (1 : K) 11 (nonsingular_curve good11 (by decide)))) := by
    rw [one_nsmul]; exact ⟨nonsingular_curve good11 (by decide), rfl⟩
  generalize (Point.some (1 : K) 11 (nonsingular_curve good11 (by decide)) :
    (curve (11 : K)).Point) = P at h1
  have h2 := dbl (x' := 5) (y' := 38) h1 (by decide +kernel)
  have h4 := dbl (x' := 33) (y' := 95) h2 (by decide +kernel)
  have h8 := dbl (x' := 59) (y' := 19) h4 (by decide +kernel)
  have h16 := dbl (x' := 80) (y' := 93) h8 (by decide +kernel)
  have h32 := dbl (x' := 31) (y' := 46) h16 (by decide +kernel)
  have h64 := dbl (x' := 67) (y' := 77) h32 (by decide +kernel)
  have h128 := dbl (x' := 1) (y' := 11) h64 (by decide +kernel)
  have h18 := (C34_add_incomplete h16 h2 (by decide) none).1 (pt 88 61, none)
    (Syn.sim_sat (by decide +kernel))
  have h19 := (C34_add_incomplete h18 h1 (by decide) none).1 (pt 63 11, none)
    (Syn.sim_sat (by decide +kernel))
  refine ⟨P, by rwa [one_nsmul] at h1, by norm_num, ?_, by norm_num, ?_⟩
  · obtain ⟨_, e1⟩ := h1
    obtain ⟨_, e2⟩ := h128
    have : (127 : ℕ) • P + (1 : ℕ) • P = (1 : ℕ) • P := by
      rw [← add_nsmul]
      exact e2.trans e1.symm
    simpa using this
  · rw [← add_nsmul, ← add_nsmul] at h19
    rw [show (19 : ℤ) = ((19 : ℕ) : ℤ) from rfl, natCast_zsmul]
    convert h19 using 1
    decide

/-- All hypotheses of `C35_group_scale` are met, with two bits. -/
example : ∃ P e, EndoPoint (11 : K) 63 (pt 1 11) P 127 19 ∧ 27 * 2 ^ 2 < 127 ∧
    HasBits 2 e 3 ∧ ∃ r, (Endoscalar.groupScale 2 (63 : K) e (pt 1 11)).sim = .ok r ∧
      Represents 11 r ((liftNative 2 19 3 : ℤ) • P) := by
  obtain ⟨P, h⟩ := toy
  obtain ⟨e, -, h1, h2⟩ := (C35_alloc (F := K) 2 3).2.2
  obtain ⟨r, h3, -, h4⟩ := (C35_group_scale good11 h 2 (by norm_num) h2).2 ⟨rfl, rfl⟩ h1
  exact ⟨P, e, h, by norm_num, h2, r, h3, h4⟩

example : liftNative 4 (19 : ℤ) 0b0110 = 197 := by decide +kernel

/-- A table of square roots in F_13; 2 generates its units. -/
private def sqrt13 (v : ZMod 13) : Option (ZMod 13) :=
  (List.range 13).findSome? fun i => if (i : ZMod 13) * i = v then some (i : ZMod 13) else none

example : SqrtSpec sqrt13 ∧ ¬ IsSquare (2 : ZMod 13) :=
  ⟨⟨by decide +kernel, by decide +kernel⟩, by decide +kernel⟩
example : extractNative 4 sqrt13 2 (1 : ZMod 13) = some 0b1101 := by decide +kernel

end Toy

end Ragu.Props
