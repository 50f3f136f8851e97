import Verif.Model.Gadget.Point
import Verif.Lemmas.Gadget.Element
import Mathlib.AlgebraicGeometry.EllipticCurve.Affine.Point

set_option linter.unusedSectionVars false

namespace Ragu.Gadget
open Ragu Ragu.Circuit Syn
variable {F : Type} [Field F] [DecidableEq F]

namespace Point

theorem alloc_sat (b : F) (p : Option (F × F)) (r : Point F) :
    (alloc b p).sat r ↔ r.y.wire ^ 2 = r.x.wire ^ 3 + b ∧ r.x.value = (p.getD (0, 0)).1 ∧
      r.y.value = (p.getD (0, 0)).2 := by
  simp only [alloc, sat_bind, tryJust_sat, true_and, exists_const, sat_pure, enforceZero_sat,
    Element.mul_sat, exists_eq_left, Element.allocSquare_sat]
  have hl : ∀ a c : F, lin [.add a, .term ONE (.arbitrary b), .sub c] = a + b - c := by
    intro a c
    simp [lin_eq, lcVal, LcStep.add, LcStep.sub, Coeff.value]; ring
  constructor
  · rintro ⟨⟨x, x2⟩, ⟨h1, h2⟩, ⟨y, y2⟩, ⟨h3, h4⟩, h5, rfl⟩
    simp only at h1 h2 h3 h4 h5 ⊢
    subst h2
    subst h4
    rw [hl] at h5
    simp only at h5
    exact ⟨by linear_combination -h5, h1, h3⟩
  · rintro ⟨h1, h2, h3⟩
    refine ⟨⟨r.x, ⟨r.x.wire * r.x.wire, _⟩⟩, ⟨h2, rfl⟩, ⟨r.y, ⟨r.y.wire * r.y.wire, _⟩⟩,
      ⟨h3, rfl⟩, ?_, rfl⟩
    rw [hl]
    simp only
    linear_combination -h1

theorem divNonzero_val {a b r : Element F} (h : (a.divNonzero b).sat r) :
    r.wire * b.wire = a.wire := ((Element.divNonzero_sat a b r).1 h).1

theorem double_sat {p r : Point F} (h : p.double.sat r) :
    ∃ d : F, d * (2 * p.y.wire) = 3 * p.x.wire ^ 2 ∧ r.x.wire = d ^ 2 - 2 * p.x.wire ∧
      r.y.wire = d * (p.x.wire - r.x.wire) - p.y.wire := by
  simp only [double, sat_bind, Element.square_sat, exists_eq_left, Element.mul_sat, sat_pure,
    Element.divNonzero_sat] at h
  obtain ⟨d, ⟨h1, -⟩, rfl⟩ := h
  refine ⟨d.wire, ?_, ?_, ?_⟩
  · simp only [Element.double_wire, Element.scale_wire, Coeff.value] at h1
    linear_combination h1
  · simp only [Element.sub_wire, Element.double_wire]; ring
  · simp only [Element.sub_wire, Element.double_wire]

theorem addIncomplete_sat {p q : Point F} {nz : Option (Element F)}
    {r : Point F × Option (Element F)} (h : (p.addIncomplete q nz).sat r) :
    (∃ d : F, d * (q.x.wire - p.x.wire) = q.y.wire - p.y.wire ∧
      r.1.x.wire = d ^ 2 - p.x.wire - q.x.wire ∧
      r.1.y.wire = d * (p.x.wire - r.1.x.wire) - p.y.wire) ∧
    r.2 = nz.map fun e => ⟨e.wire * (q.x.wire - p.x.wire), e.value * (q.x.value - p.x.value)⟩ := by
  unfold addIncomplete at h
  rw [sat_bind] at h
  obtain ⟨nz', h0, h⟩ := h
  simp only [sat_bind, Element.square_sat, exists_eq_left, Element.mul_sat, sat_pure,
    Element.divNonzero_sat] at h
  obtain ⟨d, ⟨h1, -⟩, rfl⟩ := h
  refine ⟨⟨d.wire, ?_, ?_, ?_⟩, ?_⟩
  · simpa only [Element.sub_wire] using h1
  · simp only [Element.sub_wire]; ring
  · simp only [Element.sub_wire]
  · cases nz with
    | none => simpa using h0
    | some e => simpa [Element.mul_sat] using h0

theorem doubleAndAdd_sat {p q r : Point F} (h : (p.doubleAndAddIncomplete q).sat r) :
    ∃ l1 l2 xr : F, l1 * (q.x.wire - p.x.wire) = q.y.wire - p.y.wire ∧
      xr = l1 ^ 2 - p.x.wire - q.x.wire ∧
      (l1 + l2) * (p.x.wire - xr) = 2 * p.y.wire ∧
      r.x.wire = l2 ^ 2 - xr - p.x.wire ∧
      r.y.wire = l2 * (p.x.wire - r.x.wire) - p.y.wire := by
  simp only [doubleAndAddIncomplete, sat_bind, Element.square_sat, exists_eq_left, Element.mul_sat,
    sat_pure, Element.divNonzero_sat] at h
  obtain ⟨d, ⟨h1, -⟩, e, ⟨h2, -⟩, rfl⟩ := h
  refine ⟨d.wire, e.wire - d.wire, d.wire ^ 2 - p.x.wire - q.x.wire, ?_, rfl, ?_, ?_, ?_⟩
  · simpa only [Element.sub_wire] using h1
  · simp only [Element.sub_wire, Element.double_wire] at h2
    linear_combination h2
  · simp only [Element.sub_wire]; ring
  · simp only [Element.sub_wire]

/-- Both coordinates carry their wire's value as witness. -/
def Honest (p : Point F) : Prop := p.x.Honest ∧ p.y.Honest

theorem divNonzero_sim {a b : Element F} (ha : a.Honest) (hb : b.Honest) (h : b.wire ≠ 0) :
    (a.divNonzero b).sim = .ok ⟨a.wire / b.wire, a.wire / b.wire⟩ := by
  rw [Element.divNonzero_sim_eq, show a.value = a.wire from ha, show b.value = b.wire from hb,
    if_pos ⟨h, rfl, rfl⟩, div_eq_mul_inv]

theorem honest_mk (w : F) : Element.Honest (⟨w, w⟩ : Element F) := rfl
theorem honest_sub {a b : Element F} (ha : a.Honest) (hb : b.Honest) : (a.sub b).Honest := by
  rw [Element.Honest, Element.sub_value, Element.sub_wire, show a.value = a.wire from ha,
    show b.value = b.wire from hb]
theorem honest_add {a b : Element F} (ha : a.Honest) (hb : b.Honest) : (a.add b).Honest := by
  rw [Element.Honest, Element.add_value, Element.add_wire, show a.value = a.wire from ha,
    show b.value = b.wire from hb]
theorem honest_double {a : Element F} (ha : a.Honest) : a.double.Honest := honest_add ha ha
theorem honest_scale {a : Element F} (ha : a.Honest) (c : Coeff F) : (a.scale c).Honest := by
  rw [Element.Honest, Element.scale_value, Element.scale_wire, show a.value = a.wire from ha]
theorem honest_negate {a : Element F} (ha : a.Honest) : a.negate.Honest := honest_scale ha _

theorem double_sim {p : Point F} (hp : p.Honest) (h : 2 * p.y.wire ≠ 0) :
    ∃ r, p.double.sim = .ok r ∧ r.Honest := by
  have e1 : p.y.double.wire ≠ 0 := by rwa [Element.double_wire, ← two_mul]
  rw [double, Element.square, sim_bind_ok (Element.mul_sim hp.1 hp.1),
    sim_bind_ok (divNonzero_sim (honest_scale (honest_mk _) _) (honest_double hp.2) e1),
    Element.square, sim_bind_ok (Element.mul_sim (honest_mk _) (honest_mk _)),
    sim_bind_ok (Element.mul_sim (honest_mk _)
      (honest_sub hp.1 (honest_sub (honest_mk _) (honest_double hp.1))))]
  exact ⟨_, rfl, honest_sub (honest_mk _) (honest_double hp.1), honest_sub (honest_mk _) hp.2⟩

theorem addIncomplete_sim {p q : Point F} (hp : p.Honest) (hq : q.Honest)
    {nz : Option (Element F)} (hn : ∀ e ∈ nz, e.Honest) (h : p.x.wire ≠ q.x.wire) :
    ∃ r, (p.addIncomplete q nz).sim = .ok r ∧ r.1.Honest ∧ ∀ e ∈ r.2, e.Honest := by
  have e1 : (q.x.sub p.x).wire ≠ 0 := by rw [Element.sub_wire]; exact sub_ne_zero.2 h.symm
  have hs := honest_sub hq.1 hp.1
  cases nz with
  | none =>
    rw [addIncomplete, sim_bind_ok (a := none) rfl]
    rw [sim_bind_ok (divNonzero_sim (honest_sub hq.2 hp.2) hs e1),
      Element.square, sim_bind_ok (Element.mul_sim (honest_mk _) (honest_mk _)),
      sim_bind_ok (Element.mul_sim (honest_mk _)
        (honest_sub hp.1 (honest_sub (honest_sub (honest_mk _) hp.1) hq.1)))]
    exact ⟨_, rfl, ⟨honest_sub (honest_sub (honest_mk _) hp.1) hq.1,
      honest_sub (honest_mk _) hp.2⟩, by simp⟩
  | some e =>
    have he := hn e rfl
    rw [addIncomplete, sim_bind_ok (a := some ⟨e.wire * (q.x.sub p.x).wire, e.wire * (q.x.sub p.x).wire⟩)
      (by rw [sim_bind_ok (Element.mul_sim he hs)]; rfl)]
    rw [sim_bind_ok (divNonzero_sim (honest_sub hq.2 hp.2) hs e1),
      Element.square, sim_bind_ok (Element.mul_sim (honest_mk _) (honest_mk _)),
      sim_bind_ok (Element.mul_sim (honest_mk _)
        (honest_sub hp.1 (honest_sub (honest_sub (honest_mk _) hp.1) hq.1)))]
    refine ⟨_, rfl, ⟨honest_sub (honest_sub (honest_mk _) hp.1) hq.1,
      honest_sub (honest_mk _) hp.2⟩, ?_⟩
    intro x hx
    simp only [Option.mem_def, Option.some.injEq] at hx
    rw [← hx]; rfl

theorem doubleAndAdd_sim {p q : Point F} (hp : p.Honest) (hq : q.Honest)
    (h : p.x.wire ≠ q.x.wire)
    (h' : p.x.wire ≠ ((q.y.wire - p.y.wire) / (q.x.wire - p.x.wire)) ^ 2 - p.x.wire - q.x.wire) :
    ∃ r, (p.doubleAndAddIncomplete q).sim = .ok r ∧ r.Honest := by
  have e1 : (q.x.sub p.x).wire ≠ 0 := by rw [Element.sub_wire]; exact sub_ne_zero.2 h.symm
  rw [doubleAndAddIncomplete, sim_bind_ok (divNonzero_sim (honest_sub hq.2 hp.2)
    (honest_sub hq.1 hp.1) e1), Element.square,
    sim_bind_ok (Element.mul_sim (honest_mk _) (honest_mk _))]
  have hxr := honest_sub (honest_sub (honest_mk ((q.y.sub p.y).wire / (q.x.sub p.x).wire *
    ((q.y.sub p.y).wire / (q.x.sub p.x).wire))) hp.1) hq.1
  rw [sim_bind_ok (divNonzero_sim (honest_double hp.2) (honest_sub hp.1 hxr) ?_)]
  · have hl2 := honest_sub (honest_mk (p.y.double.wire / (p.x.sub (Element.sub (Element.sub
      ⟨(q.y.sub p.y).wire / (q.x.sub p.x).wire * ((q.y.sub p.y).wire / (q.x.sub p.x).wire),
      (q.y.sub p.y).wire / (q.x.sub p.x).wire * ((q.y.sub p.y).wire / (q.x.sub p.x).wire)⟩
      p.x) q.x)).wire)) (honest_mk ((q.y.sub p.y).wire / (q.x.sub p.x).wire))
    dsimp only
    rw [Element.square, sim_bind_ok (Element.mul_sim hl2 hl2),
      sim_bind_ok (Element.mul_sim hl2 (honest_sub hp.1
        (honest_sub (honest_sub (honest_mk _) hxr) hp.1)))]
    exact ⟨_, rfl, honest_sub (honest_sub (honest_mk _) hxr) hp.1,
      honest_sub (honest_mk _) hp.2⟩
  · simp only [Element.sub_wire]
    rw [← pow_two]
    exact sub_ne_zero.2 h'

end Point
end Ragu.Gadget
