/-
Property C34: curve point gadgets compute the group law of y² = x³ + b.

The specification is Mathlib's group of nonsingular affine points of a Weierstrass curve.
-/
import Verif.Lemmas.Gadget.Point
import Verif.Lemmas.TestField
import Verif.Props.Gadget

set_option linter.unusedSectionVars false

namespace Ragu.Props
open Ragu Ragu.Circuit Ragu.Gadget Ragu.Gadget.Syn WeierstrassCurve.Affine
variable {F : Type} [Field F] [DecidableEq F]

/-- The curve y² = x³ + b. -/
def curve (b : F) : WeierstrassCurve.Affine F := ⟨0, 0, 0, 0, b⟩

/-- The wires of the gadget hold the affine coordinates of `P`. -/
def Represents (b : F) (p : Gadget.Point F) (P : (curve b).Point) : Prop :=
  ∃ h : (curve b).Nonsingular p.x.wire p.y.wire, P = .some p.x.wire p.y.wire h

/-- What is assumed of the curve: characteristic neither 2 nor 3, and b ≠ 0. -/
structure GoodCurve (b : F) : Prop where
  two : (2 : F) ≠ 0
  three : (3 : F) ≠ 0
  b_ne : b ≠ 0

theorem equation_curve (b x y : F) : (curve b).Equation x y ↔ y ^ 2 = x ^ 3 + b := by
  rw [WeierstrassCurve.Affine.equation_iff]
  simp [curve]

theorem nonsingular_curve {b : F} (hb : GoodCurve b) {x y : F} (h : y ^ 2 = x ^ 3 + b) :
    (curve b).Nonsingular x y := by
  rw [WeierstrassCurve.Affine.nonsingular_iff]
  refine ⟨(equation_curve b x y).2 h, ?_⟩
  simp only [curve]
  by_cases hy : y = 0
  · left
    subst hy
    intro h0
    have h1 : 3 * x ^ 2 = 0 := by linear_combination -h0
    have h2 : x = 0 := by
      rcases mul_eq_zero.1 h1 with h | h
      · exact absurd h hb.three
      · exact pow_eq_zero_iff (two_ne_zero) |>.1 h
    subst h2
    exact hb.b_ne (by linear_combination -h)
  · right
    intro h0
    have h1 : 2 * y = 0 := by linear_combination h0
    exact (mul_ne_zero hb.two hy) h1

theorem Represents.eqn {b : F} {p : Gadget.Point F} {P : (curve b).Point}
    (h : Represents b p P) : p.y.wire ^ 2 = p.x.wire ^ 3 + b :=
  (equation_curve b _ _).1 h.1.1

theorem Represents.of_coords {b : F} {p : Gadget.Point F} {x y : F}
    (h : (curve b).Nonsingular x y) (hx : p.x.wire = x) (hy : p.y.wire = y) :
    Represents b p (.some x y h) := by
  subst hx; subst hy; exact ⟨h, rfl⟩

theorem Represents.ne_zero {b : F} {p : Gadget.Point F} {P : (curve b).Point}
    (h : Represents b p P) : P ≠ 0 := by
  obtain ⟨h, rfl⟩ := h
  exact Point.some_ne_zero h

theorem negY_curve (b x y : F) : (curve b).negY x y = -y := by
  simp [WeierstrassCurve.Affine.negY, curve]

/-- C34: an allocated point is a non-identity point of the curve in every satisfying
assignment; every such point can be allocated; the identity cannot be witnessed. -/
theorem C34_alloc {b : F} (hb : GoodCurve b) :
    (∀ w r, (Gadget.Point.alloc b w).sat r → ∃ P, Represents b r P) ∧
    (∀ (x y : F) (h : (curve b).Nonsingular x y), ∃ r,
      (Gadget.Point.alloc b (some (x, y))).sim = .ok r ∧ r.Honest ∧
        Represents b r (.some x y h)) ∧
    (Gadget.Point.alloc b none).sim = .error .invalidWitness := by
  refine ⟨fun w r h => ?_, fun x y h => ?_, rfl⟩
  · have h1 := ((Gadget.Point.alloc_sat b w r).1 h).1
    exact ⟨_, nonsingular_curve hb h1, rfl⟩
  · have h1 := (equation_curve b x y).1 h.1
    refine ⟨⟨⟨x, x⟩, ⟨y, y⟩⟩, ?_, ⟨rfl, rfl⟩, ⟨h, rfl⟩⟩
    have hl : x ^ 2 * x + b - y ^ 2 = 0 := by linear_combination -h1
    rw [Gadget.Point.alloc, sim_bind_ok (a := ()) rfl]
    simp only [Option.getD_some]
    rw [sim_bind_ok (Element.allocSquare_sim x)]
    simp only
    rw [sim_bind_ok (Element.mul_sim (by rfl) (by rfl))]
    rw [sim_bind_ok (Element.allocSquare_sim y)]
    simp only
    rw [sim_bind, enforceZero_sim, if_pos]
    · rfl
    · simp [lin_eq, lcVal, LcStep.add, LcStep.sub, Coeff.value]
      linear_combination hl

/-- C34: `constant` gives exactly the requested point and rejects the identity. -/
theorem C34_constant {b : F} (x y : F) (h : (curve b).Nonsingular x y) :
    (∃ r, Gadget.Point.constant (some (x, y)) = .ok r ∧ r.Honest ∧
      Represents b r (.some x y h)) ∧
    Gadget.Point.constant (F := F) none = .error .invalidWitness := by
  refine ⟨⟨_, rfl, ⟨?_, ?_⟩, Represents.of_coords h (by simp) (by simp)⟩, rfl⟩ <;>
    simp [Element.Honest]

/-- C34: `negate`. -/
theorem C34_negate {b : F} {p : Gadget.Point F} {P : (curve b).Point} (h : Represents b p P) :
    Represents b p.negate (-P) ∧ (p.Honest → p.negate.Honest) := by
  obtain ⟨h, rfl⟩ := h
  refine ⟨?_, fun hp => ⟨hp.1, Gadget.Point.honest_negate hp.2⟩⟩
  rw [Point.neg_some]
  exact Represents.of_coords _ rfl (by rw [negY_curve]; simp [Gadget.Point.negate])

/-- C34: `add_incomplete` of points with different x-coordinates is point addition. -/
theorem C34_add_incomplete {b : F} {p q : Gadget.Point F} {P Q : (curve b).Point}
    (hp : Represents b p P) (hq : Represents b q Q) (hx : p.x.wire ≠ q.x.wire)
    (nz : Option (Element F)) :
    (∀ r, (p.addIncomplete q nz).sat r → Represents b r.1 (P + Q)) ∧
    (p.Honest → q.Honest → (∀ e ∈ nz, e.Honest) →
      ∃ r, (p.addIncomplete q nz).sim = .ok r ∧ r.1.Honest ∧ Represents b r.1 (P + Q)) := by
  have key : ∀ r, (p.addIncomplete q nz).sat r → Represents b r.1 (P + Q) := by
    intro r h
    obtain ⟨⟨d, h1, h2, h3⟩, -⟩ := Gadget.Point.addIncomplete_sat h
    obtain ⟨np, rfl⟩ := hp
    obtain ⟨nq, rfl⟩ := hq
    have hx' : q.x.wire - p.x.wire ≠ 0 := sub_ne_zero.2 hx.symm
    have hx'' : p.x.wire - q.x.wire ≠ 0 := sub_ne_zero.2 hx
    have hd : d = (curve b).slope p.x.wire q.x.wire p.y.wire q.y.wire := by
      rw [slope_of_X_ne hx, eq_div_iff hx'']
      linear_combination -h1
    rw [Point.add_of_X_ne hx]
    refine Represents.of_coords _ ?_ ?_
    · rw [h2, ← hd]; simp [addX, curve]
    · rw [h3, h2, ← hd]; simp [addY, negAddY, addX, negY, curve]; ring
  refine ⟨key, fun hp' hq' hn => ?_⟩
  obtain ⟨r, h1, h2, -⟩ := Gadget.Point.addIncomplete_sim hp' hq' hn hx
  exact ⟨r, h1, h2, key r (Syn.sim_sat h1)⟩

/-- C34, degenerate additions: with equal x-coordinates the circuit cannot be satisfied for
`Q = -P ≠ P`, and the honest prover always fails; but for `Q = P` *any* slope satisfies it, so
the caller must rule that case out (documented, through the `nonzero` accumulator). -/
theorem C34_add_degenerate {b : F} {p q : Gadget.Point F} (hx : p.x.wire = q.x.wire) :
    (p.y.wire ≠ q.y.wire → ∀ nz r, ¬ (p.addIncomplete q nz).sat r) ∧
    (p.Honest → q.Honest → ∀ r, (p.addIncomplete q none).sim ≠ .ok r) ∧
    (p.y.wire = q.y.wire → ∀ d : F, ∃ r, (p.addIncomplete q none).sat r ∧
      r.1.x.wire = d ^ 2 - 2 * p.x.wire) := by
  refine ⟨fun hy nz r h => ?_, fun hp hq r h => ?_, fun hy d => ?_⟩
  · obtain ⟨⟨d, h1, -⟩, -⟩ := Gadget.Point.addIncomplete_sat h
    rw [hx, sub_self, mul_zero] at h1
    exact hy (by linear_combination -h1.symm)
  · unfold Gadget.Point.addIncomplete at h
    rw [sim_bind_ok (a := none) rfl, sim_bind, Element.divNonzero_sim_eq, if_neg] at h
    · cases h
    · rintro ⟨h1, -⟩
      apply h1
      rw [Element.sub_value, show p.x.value = p.x.wire from hp.1,
        show q.x.value = q.x.wire from hq.1, hx, sub_self]
  · unfold Gadget.Point.addIncomplete
    simp only [sat_bind, sat_pure, exists_eq_left, Element.square_sat, Element.mul_sat,
      Element.divNonzero_sat]
    refine ⟨_, ⟨⟨d, _⟩, ⟨?_, rfl⟩, rfl⟩, ?_⟩
    · simp [hx, hy]
    · simp only [Element.sub_wire, ← hx]; ring

/-- A chain of additions threading the accumulator: what a caller does with `nonzero`. -/
def addChain (nz : Element F) : List (Gadget.Point F × Gadget.Point F) →
    Syn F (List (Gadget.Point F) × Element F)
  | [] => return ([], nz)
  | (p, q) :: rest => do
    let (r, nz') ← p.addIncomplete q (some nz)
    let (rs, nz'') ← addChain (nz'.getD nz) rest
    return (r :: rs, nz'')

/-- C34: after a batch of additions the accumulator is nonzero exactly when it started nonzero
and every pair had distinct x-coordinates. -/
theorem C34_nonzero_accumulator (ps : List (Gadget.Point F × Gadget.Point F)) :
    ∀ (nz : Element F) r, (addChain nz ps).sat r →
      (r.2.wire ≠ 0 ↔ nz.wire ≠ 0 ∧ ∀ pq ∈ ps, pq.1.x.wire ≠ pq.2.x.wire) := by
  induction ps with
  | nil =>
    intro nz r h
    simp only [addChain, sat_pure] at h
    simp [h]
  | cons pq ps ih =>
    intro nz r h
    obtain ⟨p, q⟩ := pq
    simp only [addChain, sat_bind] at h
    obtain ⟨a, h1, h⟩ := h
    have h2 := (Gadget.Point.addIncomplete_sat h1).2
    simp only [Option.map_some] at h2
    obtain ⟨c, h3, h4⟩ := h
    have h5 := ih _ c h3
    simp only [sat_pure] at h4
    subst h4
    rw [h5, h2]
    simp only [Option.getD_some, List.forall_mem_cons, mul_ne_zero_iff, sub_ne_zero]
    constructor
    · rintro ⟨⟨a, b⟩, c⟩; exact ⟨a, b.symm, c⟩
    · rintro ⟨a, b, c⟩; exact ⟨⟨a, b.symm⟩, c⟩

/-- C34: `double` doubles; no side condition is needed for soundness, and the honest prover
succeeds exactly when the point is not of order two. -/
theorem C34_double {b : F} (hb : GoodCurve b) {p : Gadget.Point F} {P : (curve b).Point}
    (hp : Represents b p P) :
    (∀ r, p.double.sat r → Represents b r (P + P)) ∧
    (p.Honest → P + P ≠ 0 → ∃ r, p.double.sim = .ok r ∧ r.Honest ∧ Represents b r (P + P)) := by
  have e := hp.eqn
  have key : ∀ r, p.double.sat r → Represents b r (P + P) := by
    intro r h
    obtain ⟨d, h1, h2, h3⟩ := Gadget.Point.double_sat h
    have hy : p.y.wire ≠ 0 := by
      intro hy
      rw [hy, mul_zero, mul_zero] at h1
      have hx : p.x.wire = 0 := by
        rcases mul_eq_zero.1 h1.symm with h | h
        · exact absurd h hb.three
        · exact pow_eq_zero_iff two_ne_zero |>.1 h
      rw [hx, hy] at e
      exact hb.b_ne (by linear_combination -e)
    obtain ⟨np, rfl⟩ := hp
    have h2y : 2 * p.y.wire ≠ 0 := mul_ne_zero hb.two hy
    have hne : p.y.wire ≠ (curve b).negY p.x.wire p.y.wire := by
      rw [negY_curve]
      intro h
      exact h2y (by linear_combination h)
    have hd : d = (curve b).slope p.x.wire p.x.wire p.y.wire p.y.wire := by
      rw [slope_of_Y_ne rfl hne, negY_curve, eq_div_iff (by rwa [sub_neg_eq_add, ← two_mul])]
      simp only [curve]
      linear_combination h1
    rw [Point.add_self_of_Y_ne hne]
    refine Represents.of_coords _ ?_ ?_
    · rw [h2, ← hd]; simp [addX, curve]; ring
    · rw [h3, h2, ← hd]; simp [addY, negAddY, addX, negY, curve]; ring
  refine ⟨key, fun hp' hne => ?_⟩
  have hy : p.y.wire ≠ 0 := by
    intro hy
    obtain ⟨np, rfl⟩ := hp
    exact hne (Point.add_self_of_Y_eq (by rw [negY_curve, hy, neg_zero]))
  obtain ⟨r, h1, h2⟩ := Gadget.Point.double_sim hp' (mul_ne_zero hb.two hy)
  exact ⟨r, h1, h2, key r (Syn.sim_sat h1)⟩

/-- C34: `double_and_add_incomplete` of points with different x-coordinates computes
`2·self + other` (the code's `self` is the doubled point); its result is never the identity, and
the honest prover succeeds exactly when `2·self + other` is not the identity. -/
theorem C34_double_and_add {b : F} (hb : GoodCurve b) {p q : Gadget.Point F}
    {P Q : (curve b).Point} (hp : Represents b p P) (hq : Represents b q Q)
    (hx : p.x.wire ≠ q.x.wire) :
    (∀ r, (p.doubleAndAddIncomplete q).sat r → Represents b r (P + P + Q)) ∧
    (p.Honest → q.Honest → P + P + Q ≠ 0 →
      ∃ r, (p.doubleAndAddIncomplete q).sim = .ok r ∧ r.Honest ∧ Represents b r (P + P + Q)) := by
  have hQ0 := hq.ne_zero
  have e := hp.eqn
  obtain ⟨np, rfl⟩ := hp
  obtain ⟨nq, rfl⟩ := hq
  have hx' : q.x.wire - p.x.wire ≠ 0 := sub_ne_zero.2 hx.symm
  have hx'' : p.x.wire - q.x.wire ≠ 0 := sub_ne_zero.2 hx
  set P : (curve b).Point := .some p.x.wire p.y.wire np with hP
  set Q : (curve b).Point := .some q.x.wire q.y.wire nq with hQ
  have hsum := Point.add_of_X_ne (h₁ := np) (h₂ := nq) hx
  have key : ∀ r, (p.doubleAndAddIncomplete q).sat r → Represents b r (P + P + Q) := by
    intro r h
    obtain ⟨l1, l2, xr, h1, h2, h3, h4, h5⟩ := Gadget.Point.doubleAndAdd_sat h
    have hd : l1 = (curve b).slope p.x.wire q.x.wire p.y.wire q.y.wire := by
      rw [slope_of_X_ne hx, eq_div_iff hx'']
      linear_combination -h1
    obtain ⟨X, Y, nr, hsum', hxr, hyr⟩ : ∃ (X Y : F) (nr : (curve b).Nonsingular X Y),
        P + Q = .some X Y nr ∧ X = xr ∧ Y = l1 * (p.x.wire - xr) - p.y.wire := by
      refine ⟨_, _, _, hsum, ?_, ?_⟩
      · rw [h2, ← hd]; simp [addX, curve]
      · rw [h2, ← hd]; simp [addY, negAddY, addX, negY, curve]; ring
    subst hxr
    have hne : X ≠ p.x.wire := by
      intro hX
      have hy0 : p.y.wire = 0 := by
        rw [hX, sub_self, mul_zero] at h3
        rcases mul_eq_zero.1 h3.symm with h | h
        · exact absurd h hb.two
        · exact h
      have hY : Y = 0 := by rw [hyr, hX, hy0]; ring
      have : P + Q = P := by
        rw [hsum', hP]
        simp only [Point.some.injEq]
        exact ⟨hX, by rw [hY, hy0]⟩
      exact hQ0 (by simpa using this)
    have hne' : X - p.x.wire ≠ 0 := sub_ne_zero.2 hne
    have hre : P + P + Q = (P + Q) + P := by abel
    rw [hre, hsum', hP, Point.add_of_X_ne hne]
    have hd2 : l2 = (curve b).slope X p.x.wire Y p.y.wire := by
      rw [slope_of_X_ne hne, eq_div_iff hne', hyr]
      linear_combination -h3
    refine Represents.of_coords _ ?_ ?_
    · rw [h4, ← hd2]; simp [addX, curve]
    · rw [h5, h4, ← hd2]; simp [addY, negAddY, addX, negY, curve]
      rw [hyr]
      linear_combination h3
  refine ⟨key, fun hp' hq' hne => ?_⟩
  have hside : p.x.wire ≠
      ((q.y.wire - p.y.wire) / (q.x.wire - p.x.wire)) ^ 2 - p.x.wire - q.x.wire := by
    intro hX
    have nr := nonsingular_add np nq (fun h => hx h.1)
    have hsum' : P + Q = .some _ _ nr := hsum
    have hs : (curve b).slope p.x.wire q.x.wire p.y.wire q.y.wire =
        (q.y.wire - p.y.wire) / (q.x.wire - p.x.wire) := by
      rw [slope_of_X_ne hx, ← neg_sub q.y.wire, ← neg_sub q.x.wire, neg_div_neg_eq]
    have hxr : (curve b).addX p.x.wire q.x.wire
        ((curve b).slope p.x.wire q.x.wire p.y.wire q.y.wire) = p.x.wire := by
      rw [hs]; simp only [addX, curve]; linear_combination -hX
    rcases Point.X_eq_iff (h₁ := nr) (h₂ := np) |>.1 hxr with h | h
    · rw [← hsum', ← hP] at h
      exact hQ0 (by simpa using h)
    · rw [← hsum'] at h
      apply hne
      have : P + P + Q = P + (P + Q) := by abel
      rw [this, h]
      exact add_neg_cancel P
  obtain ⟨r, h1, h2⟩ := Gadget.Point.doubleAndAdd_sim hp' hq' hx hside
  exact ⟨r, h1, h2, key r (Syn.sim_sat h1)⟩

/-- C34: negation and the endomorphism map chosen by a bit. -/
theorem C34_conditional {b zeta : F} (hz : zeta ^ 3 = 1) {p : Gadget.Point F}
    {P : (curve b).Point} (hp : Represents b p P) (hb : GoodCurve b) (c : Gadget.Boolean F) :
    (∀ r, (p.conditionalNegate c).sat r →
      (c.wire = 1 → Represents b r (-P)) ∧ (c.wire = 0 → Represents b r P)) ∧
    (∀ r, (p.conditionalEndo zeta c).sat r →
      (c.wire = 1 → r.x.wire = zeta * p.x.wire ∧ r.y.wire = p.y.wire ∧ ∃ Q, Represents b r Q) ∧
      (c.wire = 0 → Represents b r P)) := by
  have e := hp.eqn
  constructor
  · intro r h
    simp only [Gadget.Point.conditionalNegate, sat_bind, Boolean.conditionalSelect_sat,
      exists_eq_left, sat_pure] at h
    subst h
    constructor
    · intro hc
      obtain ⟨np, rfl⟩ := hp
      rw [Point.neg_some]
      exact Represents.of_coords _ rfl (by rw [negY_curve]; simp [hc])
    · intro hc
      obtain ⟨np, rfl⟩ := hp
      exact Represents.of_coords _ rfl (by simp [hc])
  · intro r h
    simp only [Gadget.Point.conditionalEndo, sat_bind, Boolean.conditionalSelect_sat,
      exists_eq_left, sat_pure] at h
    subst h
    constructor
    · intro hc
      have hxw : p.x.wire + c.wire * ((p.x.scale (.arbitrary zeta)).wire - p.x.wire) =
          zeta * p.x.wire := by
        rw [hc, Element.scale_wire]; simp [Coeff.value, mul_comm]
      refine ⟨hxw, rfl, _, nonsingular_curve hb ?_, rfl⟩
      simp only [hxw]
      rw [e, mul_pow, hz, one_mul]
    · intro hc
      obtain ⟨np, rfl⟩ := hp
      exact Represents.of_coords _ (by simp [hc]) rfl

/-- C34: for the honest prover both conditional maps succeed, and do what the bit's value says. -/
theorem C34_conditional_honest {b zeta : F} (hz : zeta ^ 3 = 1) {p : Gadget.Point F}
    {P : (curve b).Point} (hp : Represents b p P) (hb : GoodCurve b) {c : Gadget.Boolean F}
    (hc : c.Honest) (hh : p.Honest) :
    (∃ r, (p.conditionalNegate c).sim = .ok r ∧ r.Honest ∧
      Represents b r (if c.value then -P else P)) ∧
    (∃ r, (p.conditionalEndo zeta c).sim = .ok r ∧ r.Honest ∧
      (c.value = true → r.x.wire = zeta * p.x.wire ∧ r.y.wire = p.y.wire ∧ ∃ Q, Represents b r Q) ∧
      (c.value = false → Represents b r P)) := by
  obtain ⟨k1, k2⟩ := C34_conditional hz hp hb c
  have hbit : (c.value = true → c.wire = 1) ∧ (c.value = false → c.wire = 0) := by
    have : c.wire = Gadget.fe c.value := hc.symm
    constructor <;> intro h <;> rw [this, h] <;> rfl
  constructor
  · obtain ⟨y, hy, e⟩ : ∃ y : Element F, y.Honest ∧ (p.conditionalNegate c).sim = .ok ⟨p.x, y⟩ :=
      ⟨⟨p.y.wire + c.wire * (p.y.negate.wire - p.y.wire),
        p.y.wire + c.wire * (p.y.negate.wire - p.y.wire)⟩, rfl, by
        simp only [Gadget.Point.conditionalNegate, Syn.sim_bind,
          Boolean.conditionalSelect_sim hc hh.2 (Gadget.Point.honest_negate hh.2)]
        rfl⟩
    refine ⟨_, e, ⟨hh.1, hy⟩, ?_⟩
    obtain ⟨a1, a2⟩ := k1 _ (Syn.sim_sat e)
    split
    · next h => exact a1 (hbit.1 h)
    · next h => exact a2 (hbit.2 (by simpa using h))
  · obtain ⟨x, hx, e⟩ : ∃ x : Element F, x.Honest ∧ (p.conditionalEndo zeta c).sim = .ok ⟨x, p.y⟩ :=
      ⟨⟨p.x.wire + c.wire * ((p.x.scale (.arbitrary zeta)).wire - p.x.wire),
        p.x.wire + c.wire * ((p.x.scale (.arbitrary zeta)).wire - p.x.wire)⟩, rfl, by
        simp only [Gadget.Point.conditionalEndo, Syn.sim_bind,
          Boolean.conditionalSelect_sim hc hh.1 (Gadget.Point.honest_scale hh.1 _)]
        rfl⟩
    obtain ⟨a1, a2⟩ := k2 _ (Syn.sim_sat e)
    exact ⟨_, e, ⟨hx, hh.2⟩, fun h => a1 (hbit.1 h), fun h => a2 (hbit.2 h)⟩

/-- C34: `value` of an honest point is the point it stands for; it panics exactly if the witness is not
on the curve. -/
theorem C34_value {b : F} (p : Gadget.Point F) :
    (∀ x y (h : (curve b).Nonsingular x y), p.Honest → Represents b p (.some x y h) →
      p.value b = some (x, y)) ∧
    (p.value b = none ↔ ¬ (curve b).Equation p.x.value p.y.value) := by
  refine ⟨fun x y h hh hr => ?_, ?_⟩
  · have he := hr.eqn
    obtain ⟨h', e⟩ := hr
    rw [WeierstrassCurve.Affine.Point.some.injEq] at e
    have h1 : p.x.value = p.x.wire := hh.1
    have h2 : p.y.value = p.y.wire := hh.2
    rw [Gadget.Point.value, h1, h2, if_pos he, e.1, e.2]
  · rw [equation_curve, Gadget.Point.value]
    split <;> simp_all

/-- C34: `enforce_consistent` accepts exactly wires on the curve. -/
theorem C34_consistent (b : F) (p : Gadget.Point F) :
    (p.enforceConsistent b).sat () ↔ p.y.wire ^ 2 = p.x.wire ^ 3 + b := by
  simp only [Gadget.Point.enforceConsistent, sat_bind, Gadget.Point.alloc_sat, enforceEqual_sat,
    exists_const]
  constructor
  · rintro ⟨r, ⟨h, -⟩, h1, h2⟩
    rwa [h1, h2] at h
  · intro h
    exact ⟨p, ⟨h, rfl, rfl⟩, rfl, rfl⟩

/-! The toy curve y² = x³ + 2 over the field of 13 elements has 19 points. -/
example : GoodCurve (2 : ZMod 13) := ⟨by decide, by decide, by decide⟩
example : ((Gadget.Point.mk ⟨1, 1⟩ ⟨4, 4⟩ : Gadget.Point (ZMod 13)).double).sim =
    .ok ⟨⟨2, 2⟩, ⟨7, 7⟩⟩ := by decide +kernel
example : ∃ P, Represents (2 : ZMod 13) (Gadget.Point.mk ⟨1, 1⟩ ⟨4, 4⟩) P :=
  ⟨_, nonsingular_curve ⟨by decide, by decide, by decide⟩ (by decide), rfl⟩

/-- Non-vacuity of C34_value and C34_conditional_honest. -/
example : (Gadget.Point.mk ⟨1, 1⟩ ⟨4, 4⟩ : Gadget.Point (ZMod 13)).value 2 = some (1, 4) ∧
    (Gadget.Point.mk ⟨1, 1⟩ ⟨4, 5⟩ : Gadget.Point (ZMod 13)).value 2 = none ∧
    (3 : ZMod 13) ^ 3 = 1 ∧ Gadget.Boolean.Honest (⟨1, true⟩ : Gadget.Boolean (ZMod 13)) ∧
    ((Gadget.Point.mk ⟨1, 1⟩ ⟨4, 4⟩ : Gadget.Point (ZMod 13)).conditionalEndo 3 ⟨1, true⟩).sim =
      .ok ⟨⟨3, 3⟩, ⟨4, 4⟩⟩ := by
  refine ⟨by decide +kernel, by decide +kernel, by decide, rfl, by decide +kernel⟩

end Ragu.Props
