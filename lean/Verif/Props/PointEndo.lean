/-
Property C34, the endomorphism: `endo` is a homomorphism of the group of the curve whose cube is the
identity.
-/
import Verif.Lemmas.CurveCert
import Verif.Props.Point

set_option linter.unusedSectionVars false

namespace Ragu.Props
open Ragu Ragu.Circuit Ragu.Gadget WeierstrassCurve.Affine
variable {F : Type} [Field F] [DecidableEq F]

/-- C34: for a cube root of unity ζ there is one homomorphism of the curve's group, (x, y) ↦ (ζx, y),
such that `endo` of a gadget that stands for `P` stands for its image, an honest gadget stays
honest, and `endo` applied three times stands for `P` again. -/
theorem C34_endo {b zeta : F} (hb : GoodCurve b) (hz : zeta ^ 3 = 1) :
    ∃ φ : (curve b).Point →+ (curve b).Point,
      (∀ (x y : F) (h : (curve b).Nonsingular x y), ∃ h', φ (.some x y h) = .some (zeta * x) y h') ∧
      ∀ (p : Gadget.Point F) (P : (curve b).Point), Represents b p P →
        Represents b (p.endo zeta) (φ P) ∧ (p.Honest → (p.endo zeta).Honest) ∧
        Represents b (((p.endo zeta).endo zeta).endo zeta) P := by
  refine ⟨AddMonoidHom.mk' (Cert.endo hb hz) (Cert.endo_add hb hz),
    fun x y h => ⟨Cert.nonsingular_endo hb hz h, rfl⟩, ?_⟩
  rintro p P ⟨h, rfl⟩
  refine ⟨Represents.of_coords (Cert.nonsingular_endo hb hz h)
      (by simp [Gadget.Point.endo, Coeff.value, mul_comm]) (by simp [Gadget.Point.endo]),
    fun hp => ⟨Gadget.Point.honest_scale hp.1 _, hp.2⟩, Represents.of_coords h ?_ rfl⟩
  simp only [Gadget.Point.endo, Element.scale_wire, Coeff.value]
  linear_combination p.x.wire * hz

/-- Non-vacuity of C34_endo: the toy curve with ζ = 3, and a point that the map moves. -/
example : GoodCurve (2 : ZMod 13) ∧ (3 : ZMod 13) ^ 3 = 1 ∧
    (∃ P, Represents (2 : ZMod 13) (Gadget.Point.mk ⟨1, 1⟩ ⟨4, 4⟩) P) ∧
    (Gadget.Point.mk ⟨1, 1⟩ ⟨4, 4⟩ : Gadget.Point (ZMod 13)).endo 3 = ⟨⟨3, 3⟩, ⟨4, 4⟩⟩ :=
  ⟨⟨by decide, by decide, by decide⟩, by decide,
    ⟨_, nonsingular_curve ⟨by decide, by decide, by decide⟩ (by decide), rfl⟩, by decide +kernel⟩

end Ragu.Props
